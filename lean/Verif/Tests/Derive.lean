import Verif.Model.CodeText

/-!
# The unit tests of `derive/src/util.rs`, `derive/src/gen.rs` and `derive/src/parse.rs`, run on the model

Not properties: these tests only check that the model computes what the project's own tests expect.
-/

namespace Verif.Tests

open CodeText

deriving instance DecidableEq for LengthText.Tok

/-- `test_get_mask`, `derive/src/util.rs:273-305`. -/
example :
    getMask 0 1 = some (1, 128) ∧
    getMask 0 2 = some (2, 192) ∧
    getMask 0 3 = some (3, 224) ∧
    getMask 0 4 = some (4, 240) ∧
    getMask 0 5 = some (5, 248) ∧
    getMask 0 6 = some (6, 252) ∧
    getMask 0 7 = some (7, 254) ∧
    getMask 0 8 = some (8, 255) ∧
    getMask 0 9 = some (8, 255) ∧
    getMask 0 100 = some (8, 255) ∧
    getMask 1 1 = some (1, 64) ∧
    getMask 1 2 = some (2, 96) ∧
    getMask 1 3 = some (3, 112) ∧
    getMask 1 4 = some (4, 120) ∧
    getMask 1 5 = some (5, 124) ∧
    getMask 1 6 = some (6, 126) ∧
    getMask 1 7 = some (7, 127) ∧
    getMask 1 8 = some (7, 127) ∧
    getMask 1 9 = some (7, 127) ∧
    getMask 1 100 = some (7, 127) ∧
    getMask 5 1 = some (1, 4) ∧
    getMask 5 2 = some (2, 6) ∧
    getMask 5 3 = some (3, 7) ∧
    getMask 5 4 = some (3, 7) ∧
    getMask 5 5 = some (3, 7) ∧
    getMask 5 6 = some (3, 7) ∧
    getMask 5 7 = some (3, 7) ∧
    getMask 5 8 = some (3, 7) ∧
    getMask 5 100 = some (3, 7) := by
  and_intros <;> decide

/-- `test_get_shiftl`, `derive/src/util.rs:322-345`. -/
example :
    getShiftl 0 8 0 1 = some 0 ∧
    getShiftl 0 9 0 2 = some 1 ∧
    getShiftl 0 9 1 2 = some 0 ∧
    getShiftl 0 10 0 2 = some 2 ∧
    getShiftl 0 10 1 2 = some 0 ∧
    getShiftl 0 11 0 2 = some 3 ∧
    getShiftl 0 11 1 2 = some 0 ∧
    getShiftl 1 7 0 1 = some 0 ∧
    getShiftl 1 8 0 2 = some 1 ∧
    getShiftl 1 9 0 2 = some 2 ∧
    getShiftl 1 9 1 2 = some 0 ∧
    getShiftl 1 10 0 2 = some 3 ∧
    getShiftl 1 10 1 2 = some 0 ∧
    getShiftl 1 11 0 2 = some 4 ∧
    getShiftl 1 11 1 2 = some 0 ∧
    getShiftl 0 35 0 5 = some 27 ∧
    getShiftl 0 35 1 5 = some 19 ∧
    getShiftl 0 35 2 5 = some 11 ∧
    getShiftl 0 35 3 5 = some 3 ∧
    getShiftl 0 35 4 5 = some 0 := by
  and_intros <;> decide

/-- `test_get_shiftr`, `derive/src/util.rs:356-383`. -/
example :
    getShiftr 0 1 0 1 = some 7 ∧
    getShiftr 0 2 0 1 = some 6 ∧
    getShiftr 0 3 0 1 = some 5 ∧
    getShiftr 0 4 0 1 = some 4 ∧
    getShiftr 0 5 0 1 = some 3 ∧
    getShiftr 0 6 0 1 = some 2 ∧
    getShiftr 0 7 0 1 = some 1 ∧
    getShiftr 0 8 0 1 = some 0 ∧
    getShiftr 0 9 0 2 = some 0 ∧
    getShiftr 0 9 1 2 = some 7 ∧
    getShiftr 1 7 0 1 = some 0 ∧
    getShiftr 1 8 0 2 = some 0 ∧
    getShiftr 1 8 1 2 = some 7 ∧
    getShiftr 1 9 0 2 = some 0 ∧
    getShiftr 1 9 1 2 = some 6 ∧
    getShiftr 1 10 0 2 = some 0 ∧
    getShiftr 1 10 1 2 = some 5 ∧
    getShiftr 1 11 0 2 = some 0 ∧
    getShiftr 1 11 1 2 = some 4 ∧
    getShiftr 0 35 0 5 = some 0 ∧
    getShiftr 0 35 1 5 = some 0 ∧
    getShiftr 0 35 2 5 = some 0 ∧
    getShiftr 0 35 3 5 = some 0 ∧
    getShiftr 0 35 4 5 = some 5 := by
  and_intros <;> decide

/-- `operations_test`, `derive/src/util.rs:435-653`. -/
example :
    operations 0 1 .big = some [⟨128, 0, 7⟩] ∧
    operations 0 2 .big = some [⟨192, 0, 6⟩] ∧
    operations 0 3 .big = some [⟨224, 0, 5⟩] ∧
    operations 0 4 .big = some [⟨240, 0, 4⟩] ∧
    operations 0 5 .big = some [⟨248, 0, 3⟩] ∧
    operations 0 6 .big = some [⟨252, 0, 2⟩] ∧
    operations 0 7 .big = some [⟨254, 0, 1⟩] ∧
    operations 0 8 .big = some [⟨255, 0, 0⟩] ∧
    operations 0 9 .big = some [⟨255, 1, 0⟩, ⟨128, 0, 7⟩] ∧
    operations 0 10 .big = some [⟨255, 2, 0⟩, ⟨192, 0, 6⟩] ∧
    operations 1 1 .big = some [⟨64, 0, 6⟩] ∧
    operations 1 2 .big = some [⟨96, 0, 5⟩] ∧
    operations 1 3 .big = some [⟨112, 0, 4⟩] ∧
    operations 1 4 .big = some [⟨120, 0, 3⟩] ∧
    operations 1 5 .big = some [⟨124, 0, 2⟩] ∧
    operations 1 6 .big = some [⟨126, 0, 1⟩] ∧
    operations 1 7 .big = some [⟨127, 0, 0⟩] ∧
    operations 1 8 .big = some [⟨127, 1, 0⟩, ⟨128, 0, 7⟩] ∧
    operations 1 9 .big = some [⟨127, 2, 0⟩, ⟨192, 0, 6⟩] ∧
    operations 8 1 .big = none ∧
    operations 3 0 .big = none ∧
    operations 3 65 .big = none ∧
    operations 3 33 .big = some [⟨31, 28, 0⟩, ⟨255, 20, 0⟩, ⟨255, 12, 0⟩, ⟨255, 4, 0⟩, ⟨240, 0, 4⟩] := by
  and_intros <;> decide

/-- `test_to_mutator`, `derive/src/util.rs:696-1071`. -/
example :
    toMutator [⟨128, 0, 7⟩] =
      [⟨127, 1, 7, 0⟩] ∧
    toMutator [⟨192, 0, 6⟩] =
      [⟨63, 3, 6, 0⟩] ∧
    toMutator [⟨224, 0, 5⟩] =
      [⟨31, 7, 5, 0⟩] ∧
    toMutator [⟨240, 0, 4⟩] =
      [⟨15, 15, 4, 0⟩] ∧
    toMutator [⟨248, 0, 3⟩] =
      [⟨7, 31, 3, 0⟩] ∧
    toMutator [⟨252, 0, 2⟩] =
      [⟨3, 63, 2, 0⟩] ∧
    toMutator [⟨254, 0, 1⟩] =
      [⟨1, 127, 1, 0⟩] ∧
    toMutator [⟨255, 0, 0⟩] =
      [⟨0, 255, 0, 0⟩] ∧
    toMutator [⟨255, 1, 0⟩, ⟨128, 0, 7⟩] =
      [⟨0, 510, 0, 1⟩, ⟨127, 1, 7, 0⟩] ∧
    toMutator [⟨255, 2, 0⟩, ⟨192, 0, 6⟩] =
      [⟨0, 1020, 0, 2⟩, ⟨63, 3, 6, 0⟩] ∧
    toMutator [⟨64, 0, 6⟩] =
      [⟨191, 1, 6, 0⟩] ∧
    toMutator [⟨96, 0, 5⟩] =
      [⟨159, 3, 5, 0⟩] ∧
    toMutator [⟨112, 0, 4⟩] =
      [⟨143, 7, 4, 0⟩] ∧
    toMutator [⟨120, 0, 3⟩] =
      [⟨135, 15, 3, 0⟩] ∧
    toMutator [⟨124, 0, 2⟩] =
      [⟨131, 31, 2, 0⟩] ∧
    toMutator [⟨126, 0, 1⟩] =
      [⟨129, 63, 1, 0⟩] ∧
    toMutator [⟨127, 0, 0⟩] =
      [⟨128, 127, 0, 0⟩] ∧
    toMutator [⟨127, 1, 0⟩, ⟨128, 0, 7⟩] =
      [⟨128, 254, 0, 1⟩, ⟨127, 1, 7, 0⟩] ∧
    toMutator [⟨127, 2, 0⟩, ⟨192, 0, 6⟩] =
      [⟨128, 508, 0, 2⟩, ⟨63, 3, 6, 0⟩] ∧
    toMutator [⟨31, 28, 0⟩, ⟨255, 20, 0⟩, ⟨255, 12, 0⟩, ⟨255, 4, 0⟩, ⟨240, 0, 4⟩] =
      [⟨224, 8321499136, 0, 28⟩, ⟨0, 267386880, 0, 20⟩, ⟨0, 1044480, 0, 12⟩, ⟨0, 4080, 0, 4⟩, ⟨15, 15, 4, 0⟩] := by
  and_intros <;> decide

/-- `test_display_get_operation`, `derive/src/util.rs:60-108`. -/
example :
    getText ⟨15, 2, 0⟩ = "({} & 0xf) << 2".toList ∧
    getText ⟨15, 2, 2⟩ = "({} & 0xf)".toList ∧
    getText ⟨15, 0, 2⟩ = "({} & 0xf) >> 2".toList ∧
    getText ⟨255, 0, 2⟩ = "{} >> 2".toList ∧
    getText ⟨255, 3, 1⟩ = "{} << 2".toList := by
  and_intros <;> decide +kernel

/-- `test_display_set_operation`, `derive/src/util.rs:188-230`. -/
example :
    setText ⟨3, 15, 2, 0⟩ =
      "{packet} = (({packet} & 0x3) | (({val} & 0xf) << 2) as u8) as u8".toList ∧
    setText ⟨192, 15, 2, 2⟩ =
      "{packet} = (({packet} & 0xc0) | (({val} & 0xf)) as u8) as u8".toList ∧
    setText ⟨28, 15, 0, 2⟩ =
      "{packet} = (({packet} & 0x1c) | (({val} & 0xf) >> 2) as u8) as u8".toList ∧
    setText ⟨0, 255, 0, 2⟩ =
      "{packet} = ({val} >> 2) as u8".toList ∧
    setText ⟨3, 255, 3, 1⟩ =
      "{packet} = (({packet} & 0x3) | ({val} << 2) as u8) as u8".toList := by
  and_intros <;> decide +kernel

/-- `radix16_u8::test`, `radix16_u64::test`, `derive/src/util.rs:136-142`. -/
example : radix16 0xab = "ab".toList ∧ radix16 0x1c = "1c".toList := by decide +kernel

/-- `test_gen_get_ops`, `derive/src/gen.rs:808-840`: the same tokens (the tests compare token streams). -/
example :
    (operations 0 24 .big).map (fun ops => (scan (genGetOps "test".toList "u24be".toList ops))) =
      some (scan ("{ let b0 = ((test[co + 0] as u24be) << 16) as u24be; " ++
        "let b1 = ((test[co + 1] as u24be) << 8) as u24be; " ++
        "let b2 = ((test[co + 2] as u24be)) as u24be; b0 | b1 | b2 }").toList) ∧
    (operations 0 16 .big).map (fun ops => (scan (genGetOps "test".toList "u16be".toList ops))) =
      some (scan ("{ let b0 = ((test[co + 0] as u16be) << 8) as u16be; " ++
        "let b1 = ((test[co + 1] as u16be)) as u16be; b0 | b1 }").toList) ∧
    (operations 0 8 .big).map (fun ops => (scan (genGetOps "test".toList "u8".toList ops))) =
      some (scan "{ (test[co] as u8) }".toList) := by
  decide +kernel

/-- `test_parse_ty`, `derive/src/parse.rs:329-358`. -/
example :
    parseTy "u8".toList = some (8, .big, .no) ∧
    parseTy "u21be".toList = some (21, .big, .yes) ∧
    parseTy "u21le".toList = some (21, .little, .yes) ∧
    parseTy "u21he".toList = some (21, .host, .yes) ∧
    parseTy "u9".toList = some (9, .big, .no) ∧
    parseTy "u16".toList = some (16, .big, .no) ∧
    parseTy "uable".toList = none ∧
    parseTy "u21re".toList = none ∧
    parseTy "i21be".toList = none := by
  decide +kernel

end Verif.Tests
