import Verif.Model.DebugValue

/-!
# `{:?}` of an `Ipv6Addr`

Models `Display for Ipv6Addr` of the standard library (`core::net::ip_addr`, `Debug` is the same), no code
in `/repo`. Simplification: no width and no precision, as in `{:?}`. Fields of this type:
`src/ipv6.rs:23-25`, `src/icmpv6.rs`.
-/

namespace Verif

/-- `{:x}` of a segment. -/
def hexText (n : Nat) : List Char := Nat.toDigits 16 n

/-- `fmt_subslice`: segments with colons between them. -/
def colonJoin : List Nat → List Char
  | [] => []
  | [n] => hexText n
  | n :: ns => hexText n ++ ':' :: colonJoin ns

/-- `ZeroSpan`: a run of segments. -/
structure ZeroSpan where
  start : Nat
  len : Nat
deriving DecidableEq

/-- The loop that finds the longest run of zeros: segment number `i`, the current and the longest run. -/
def zeroRunFrom : (i : Nat) → (current longest : ZeroSpan) → List Nat → ZeroSpan
  | _, _, longest, [] => longest
  | i, current, longest, n :: ns =>
    if n = 0 then
      let start := if current.len = 0 then i else current.start
      let current := ⟨start, current.len + 1⟩
      zeroRunFrom (i + 1) current (if current.len > longest.len then current else longest) ns
    else zeroRunFrom (i + 1) ⟨0, 0⟩ longest ns

/-- The first of the longest runs of zeros. -/
def zeroRun (ns : List Nat) : ZeroSpan := zeroRunFrom 0 ⟨0, 0⟩ ⟨0, 0⟩ ns

/-- `Display for Ipv6Addr`, for eight segments. -/
def sixStd (ns : List Nat) : List Char :=
  match ns with
  | [0, 0, 0, 0, 0, 0xffff, g, h] =>
    "::ffff:".toList ++ (decText (g / 256) ++ ('.' :: (decText (g % 256) ++ ('.' ::
      (decText (h / 256) ++ ('.' :: decText (h % 256)))))))
  | ns =>
    let z := zeroRun ns
    if z.len > 1 then colonJoin (ns.take z.start) ++ (':' :: ':' :: colonJoin (ns.drop (z.start + z.len)))
    else colonJoin ns

end Verif
