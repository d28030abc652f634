import Verif.Model.LengthExpr

/-!
# The expressions for positions and lengths in the generated code (`derive/src/gen.rs:63-124`)

Simplification: the texts that `parse.rs:113-114` makes of the tokens and that `gen.rs:102-107` parses
again are the tokens themselves.
-/

namespace Verif

/-- `quote! { (#(#tokens_packet)*) as usize }`, `parse.rs:113`. -/
def asUsize (tokens : List TT) : List TT := [.group .paren tokens, .ident "as", .ident "usize"]

/-- `&self.packet[(co)..]`, `gen.rs:105`. -/
def restTokens (co : List TT) : List TT :=
  [.punct '&', .ident "self", .punct '.', .ident "packet",
   .group .bracket [.group .paren co, .punct '.', .punct '.']]

mutual
/-- `packet_length.replace("r#field_offset", ..)` on a token tree, `gen.rs:103-106`. Simplification: the
replacement is textual, so it would also change identifiers that only begin so. -/
def TT.fill (co : List TT) : TT → List TT
  | .ident n => if n = "r#field_offset" then restTokens co else [.ident n]
  | .punct c => [.punct c]
  | .literal t i => [.literal t i]
  | .group d inner => [.group d (fillOffset co inner)]

/-- The same on a list of token trees. -/
def fillOffset (co : List TT) : List TT → List TT
  | [] => []
  | t :: ts => t.fill co ++ fillOffset co ts
end

/-- `quote!(#a + #b)`, in `gen.rs:70` and `gen.rs:114`. -/
def plusTokens (a b : List TT) : List TT := a ++ .punct '+' :: b

/-- `current_offset`, `gen.rs:63-71`. `quote!` writes a `usize` with its suffix. -/
def currentOffset (bitOffset : Nat) (offsetFns : List (List TT)) : List TT :=
  offsetFns.foldl plusTokens [.literal (toString (bitOffset / 8) ++ "usize") true]

/-- `packet_length` of a field that has a length, `gen.rs:102-108` (with `parse.rs:113`). -/
def packetLength (co tokens : List TT) : List TT := fillOffset co (asUsize tokens)

/-- One iteration of the field loop on `(bit_offset, offset_fns_packet)`, `gen.rs:100-110,130,326,362-364`.
`width` says how many bits each field adds; `tok` as in `lengthTokens`. -/
def offsetStep (tok : String → Option (List TT)) (fields : List RawField) (width : RawField → Nat)
    (st : Nat × List (List TT)) (f : RawField) : Nat × List (List TT) :=
  (st.1 + width f,
   match lengthTokens tok fields f with
   | some tokens => st.2 ++ [packetLength (currentOffset st.1 st.2) tokens]
   | none => st.2)

/-- `co` of field `k`, `gen.rs:101`. -/
def fieldOffset (tok : String → Option (List TT)) (fields : List RawField) (width : RawField → Nat)
    (k : Nat) : List TT :=
  let st := (fields.take k).foldl (offsetStep tok fields width) (0, [])
  currentOffset st.1 st.2

/-- `co` of an argument of field `k` after arguments of `bits` bits, `gen.rs:101,325-327`; for the first one
`bits = 0`. -/
def argOffset (tok : String → Option (List TT)) (fields : List RawField) (width : RawField → Nat)
    (k bits : Nat) : List TT :=
  let st := (fields.take k).foldl (offsetStep tok fields width) (0, [])
  currentOffset (st.1 + bits) st.2

/-- `packet_length` of field `k`, if it has a length, `gen.rs:102-108`. -/
def fieldLength (tok : String → Option (List TT)) (fields : List RawField) (width : RawField → Nat)
    (k : Nat) : Option (List TT) :=
  (fields[k]?.bind (lengthTokens tok fields)).map (packetLength (fieldOffset tok fields width k))

/-- The upper bound of a payload that has a length, `gen.rs:113-114`. -/
def payloadUpper (tok : String → Option (List TT)) (fields : List RawField) (width : RawField → Nat)
    (k : Nat) : Option (List TT) :=
  (fieldLength tok fields width k).map (plusTokens (fieldOffset tok fields width k))

end Verif
