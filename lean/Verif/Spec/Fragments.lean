import Verif.Model.Checksum
import Verif.Model.Packet

/-!
# IPv4 fragments

Not code of the crate: programs that use it, for C141.
-/

namespace Verif.Spec

/-- A fragment with the given header and data: total length, flags (1: more fragments follow) and offset are set, then the
header checksum. -/
def oneFragment (m : Mode) (head : Buf) (more : Bool) (off : Nat) (data : Buf) : Res Buf := do
  let ip ← ipv4.set m (head ++ data) 4 (.num (head.length + data.length))
  let ip ← ipv4.set m ip 6 (.num (if more then 1 else 0))
  let ip ← ipv4.set m ip 7 (.num off)
  let c ← ipv4HeaderChecksum m ip
  ipv4.set m ip 10 (.num c)

/-- `n` fragments of `8 * w` bytes of data each, from the `k`-th on. -/
def fragmentsFrom (m : Mode) (head data : Buf) (w : Nat) : (n k : Nat) → Res (List Buf)
  | 0, _ => .ok []
  | n + 1, k => do
    let f ← oneFragment m head (n ≠ 0) (w * k) ((data.drop (8 * w * k)).take (8 * w))
    let fs ← fragmentsFrom m head data w n (k + 1)
    return f :: fs

/-- How many fragments there are: one if there is no data. -/
def fragmentCount (w len : Nat) : Nat := max 1 ((len + (8 * w - 1)) / (8 * w))

/-- Cuts an IPv4 packet into fragments with `8 * w` bytes of data: packets with a wrong header checksum, a header length that
is too small or too large, flags or an offset are refused. -/
def fragment4 (m : Mode) (w : Nat) (ip : Buf) : Res (Option (List Buf)) :=
  match ipv4.newPacket ip with
  | none => .ok none
  | some _ => do
    let stored ← (← ipv4.get m ip 10).asNum
    let c ← ipv4HeaderChecksum m ip
    if stored ≠ c then return none
    let hl ← (← ipv4.get m ip 1).asNum
    let flags ← (← ipv4.get m ip 6).asNum
    let off ← (← ipv4.get m ip 7).asNum
    if hl < 5 ∨ ip.length < 4 * hl ∨ flags ≠ 0 ∨ off ≠ 0 then return none
    let head ← slice ip 0 (4 * hl)
    let data ← ipv4.payload m ip
    let fs ← fragmentsFrom m head data w (fragmentCount w data.length) 0
    return some fs

/-- What the receiver keeps of a fragment: the place of its data, whether more fragments follow, the data. -/
structure Piece where
  pos : Nat
  more : Bool
  data : Buf
deriving DecidableEq

/-- Reads a fragment; `none` if the header checksum is wrong. -/
def readPiece (m : Mode) (ip : Buf) : Res (Option Piece) :=
  match ipv4.newPacket ip with
  | none => .ok none
  | some _ => do
    let stored ← (← ipv4.get m ip 10).asNum
    let c ← ipv4HeaderChecksum m ip
    if stored ≠ c then return none
    let flags ← (← ipv4.get m ip 6).asNum
    let off ← (← ipv4.get m ip 7).asNum
    let data ← ipv4.payload m ip
    return some ⟨8 * off, flags % 2 = 1, data⟩

/-- Reads all fragments, in the order in which they came. -/
def readPieces (m : Mode) : List Buf → Res (List Piece)
  | [] => .ok []
  | f :: fs => do
    let p ← readPiece m f
    let ps ← readPieces m fs
    return p.toList ++ ps

/-- Writes the pieces to their places. -/
def place (buf : Buf) : List Piece → Buf
  | [] => buf
  | p :: ps => place (buf.take p.pos ++ p.data ++ buf.drop (p.pos + p.data.length)) ps

/-- Puts fragments together: `none` until the last fragment is there and every byte before its end has come. -/
def assemble (m : Mode) (frags : List Buf) : Res (Option Buf) := do
  let ps ← readPieces m frags
  match ps.find? (fun p => !p.more) with
  | none => return none
  | some last =>
    let total := last.pos + last.data.length
    if ps.all (fun p => p.pos + p.data.length ≤ total) &&
        (List.range total).all (fun i => ps.any fun p => p.pos ≤ i && i < p.pos + p.data.length) then
      return some (place (List.replicate total 0) ps)
    else return none

/-- The fields that every fragment has from the packet: version, header length, DSCP, ECN, identification, time to live,
protocol, addresses. -/
abbrev keptFields : List Nat := [0, 1, 2, 3, 5, 8, 9, 11, 12]

end Verif.Spec
