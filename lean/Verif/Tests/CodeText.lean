import Verif.Model.CodeText

/-!
# The reader of accessor texts on small inputs

`Model/CodeText` reads the generated text as `rustc` would. These are checks of that reader against the
Rust reference: what is a literal, how operators group, and what is not a block. They are tests, not
proofs.
-/

namespace Verif.CodeText

/-! Words: no literal without digits, none with other characters. -/

example : decimalOf [] = none ∧ decimalOf "1a".toList = none ∧ decimalOf "007".toList = some 7 := by decide
example : literalOf "0x".toList = none ∧ literalOf "0x1g".toList = none ∧ literalOf "0xfe".toList = some 254 ∧
    literalOf "12".toList = some 12 ∧ literalOf "x12".toList = none := by decide
example : wordExpr "b".toList = none ∧ wordExpr "b10".toList = some (.local 10) ∧ wordExpr "bx".toList = none ∧
    wordExpr "co".toList = some .offset ∧ wordExpr "val".toList = some .value ∧ wordExpr "cow".toList = none := by
  decide

/-! `as` binds tighter than `+`, this than the shifts, these than `&`, this than `|`; operators of equal
strength group to the left. -/

example : (parseBlock "{1 + 2 << 3}".toList).map (·.tail) =
    some (some (.bin .shl (.bin .add (.int 1) (.int 2)) (.int 3))) := by decide +kernel
example : (parseBlock "{1 << 2 + 3}".toList).map (·.tail) =
    some (some (.bin .shl (.int 1) (.bin .add (.int 2) (.int 3)))) := by decide +kernel
example : (parseBlock "{1 | 2 & 3 >> 4}".toList).map (·.tail) =
    some (some (.bin .or (.int 1) (.bin .and (.int 2) (.bin .shr (.int 3) (.int 4))))) := by decide +kernel
example : (parseBlock "{1 & 2 | 3}".toList).map (·.tail) =
    some (some (.bin .or (.bin .and (.int 1) (.int 2)) (.int 3))) := by decide +kernel
example : (parseBlock "{1 << 2 >> 3 << 4}".toList).map (·.tail) =
    some (some (.bin .shl (.bin .shr (.bin .shl (.int 1) (.int 2)) (.int 3)) (.int 4))) := by decide +kernel
example : (parseBlock "{val & 3 as u8}".toList).map (·.tail) =
    some (some (.bin .and .value (.cast (.int 3) "u8".toList))) := by decide +kernel
example : (parseBlock "{(val & 3) as u8 as u16}".toList).map (·.tail) =
    some (some (.cast (.cast (.bin .and .value (.int 3)) "u8".toList) "u16".toList)) := by decide +kernel

/-! Statements. -/

example : parseBlock "{let b0 = 1; self.packet[co + 1] = b0; }".toList =
    some ⟨[.bind 0 (.int 1), .assign (.bin .add .offset (.int 1)) (.local 0)], none⟩ := by decide +kernel

/-! Texts that are no blocks. -/

example : parseBlock "1".toList = none ∧ parseBlock "{1".toList = none ∧ parseBlock "{1 2}".toList = none ∧
    parseBlock "{1 +}".toList = none ∧ parseBlock "{(1}".toList = none ∧ parseBlock "{packet}".toList = none ∧
    parseBlock "{packet[1}".toList = none ∧ parseBlock "{1 = 2;}".toList = none ∧
    parseBlock "{let c = 1;}".toList = none ∧ parseBlock "{let b0 = 1}".toList = none ∧
    parseBlock "{1}}".toList = none ∧ parseBlock "{1 < 2}".toList = none := by decide +kernel

/-! A sum that does not fit panics in debug builds and wraps in release builds. -/

example : apply .debug .add ⟨some 8, 200⟩ ⟨none, 56⟩ = .error .panic ∧
    apply .release .add ⟨some 8, 200⟩ ⟨none, 57⟩ = .ok ⟨some 8, 1⟩ ∧
    apply .debug .add ⟨some 8, 200⟩ ⟨none, 55⟩ = .ok ⟨some 8, 255⟩ ∧
    apply .release .add ⟨some 8, 200⟩ ⟨some 16, 1⟩ = .error .panic := by decide

end Verif.CodeText
