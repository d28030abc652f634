import Verif.Model.DebugValue

/-! # Specification: the form of the texts of values (the types are those of the model) -/


namespace Verif

/-- The characters that can follow a value in a `Debug` text. -/
def stops : List Char := [',', ')', ']', ' ']

/-- `six` stands for `Debug` of `Ipv6Addr` in the standard library: different addresses have different
texts, and the texts contain no commas, parentheses, brackets or spaces. -/
structure SixText (six : List Nat → List Char) : Prop where
  inj : ∀ ns ns', ns.length = 8 → ns'.length = 8 → (∀ n ∈ ns, n < 65536) → (∀ n ∈ ns', n < 65536) →
    six ns = six ns' → ns = ns'
  chars : ∀ ns, ns.length = 8 → ∀ c ∈ six ns, c ∉ stops

/-- Two hexadecimal digits of a number below 256. -/
def twoHex (n : Nat) : List Char :=
  if n < 16 then '0' :: Nat.toDigits 16 n else Nat.toDigits 16 n

/-- The texts with `sep` between them. -/
def between (sep : String) (ts : List (List Char)) : List Char := sep.toList.intercalate ts

/-- The form of the text of a value that does not contain structs. -/
inductive FlatForm (six : List Nat → List Char) : FlatTy → Val → List Char → Prop where
  | int (n : Nat) : FlatForm six .int (.num n) (toString n).toList
  | newtype (name : List Char) (n : Nat) :
    FlatForm six (.newtype name) (.nums [n]) (name ++ "(".toList ++ (toString n).toList ++ ")".toList)
  | mac (bs : List Nat) (h : bs.length = 6) (hb : ∀ b ∈ bs, b < 256) :
    FlatForm six .mac (.nums bs) (between ":" (bs.map twoHex))
  | ipv4 (bs : List Nat) (h : bs.length = 4) :
    FlatForm six .ipv4 (.nums bs) (between "." (bs.map fun b => (toString b).toList))
  | ipv6 (ns : List Nat) (h : ns.length = 8) (hn : ∀ n ∈ ns, n < 65536) : FlatForm six .ipv6 (.nums ns) (six ns)
  | ints (ns : List Nat) :
    FlatForm six .ints (.nums ns) ("[".toList ++ between ", " (ns.map fun n => (toString n).toList) ++ "]".toList)

/-- The form of `name: value` for all fields of a struct. -/
inductive NamedForm (six : List Nat → List Char) : List (List Char × FlatTy) → List Val → List (List Char) → Prop where
  | nil : NamedForm six [] [] []
  | cons {n : List Char} {t : FlatTy} {v : Val} {x : List Char} {fs vs xs}
    (h : FlatForm six t v x) (hs : NamedForm six fs vs xs) :
    NamedForm six ((n, t) :: fs) (v :: vs) ((n ++ ": ".toList ++ x) :: xs)

/-- The form of the texts of the structs in a vector. -/
inductive StructsForm (six : List Nat → List Char) (name : List Char) (fields : List (List Char × FlatTy)) :
    List Val → List (List Char) → Prop where
  | nil : StructsForm six name fields [] []
  | cons {vs ws xs ts} (h : NamedForm six fields vs xs) (hs : StructsForm six name fields ws ts) :
    StructsForm six name fields (.list vs :: ws) ((name ++ " { ".toList ++ between ", " xs ++ " }".toList) :: ts)

/-- The form of the text of a value. -/
inductive ValueForm (six : List Nat → List Char) : DebugTy → Val → List Char → Prop where
  | flat {t v x} (h : FlatForm six t v x) : ValueForm six (.flat t) v x
  | structs {name fields vs ts} (h : StructsForm six name fields vs ts) :
    ValueForm six (.structs name fields) (.list vs) ("[".toList ++ between ", " ts ++ "]".toList)

end Verif
