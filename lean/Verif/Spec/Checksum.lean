import Verif.Spec.Bits

/-!
# Specification: the Internet checksum (RFC 1071) and pseudo headers

Written from RFC 1071, RFC 793 (section 3.1), RFC 768 and RFC 8200 (section 8.1).
-/

namespace Verif.Spec

/-- The 16-bit big-endian words of a message; an odd last byte is padded with a zero byte. -/
def words16 : Buf → List Nat
  | a :: b :: rest => (256 * a.toNat + b.toNat) :: words16 rest
  | [a] => [256 * a.toNat]
  | [] => []

/-- One's complement addition of 16-bit words: the carry is added at the low end. -/
def ocAdd (a b : Nat) : Nat := if a + b < 65536 then a + b else a + b - 65536 + 1

/-- One's complement sum. -/
def ocSum (ws : List Nat) : Nat := ws.foldl ocAdd 0

/-- The Internet checksum of a sequence of words: the complement of their sum. -/
def internetChecksum (ws : List Nat) : Nat := 65535 - ocSum ws

/-- The message with bytes `2k`, `2k + 1` (as far as they exist) replaced by `hi`, `lo`. -/
def putWord (k : Nat) (hi lo : UInt8) (data : Buf) : Buf := (data.set (2 * k) hi).set (2 * k + 1) lo

/-- The message with word `k` taken as zero. -/
def zeroWord (k : Nat) (data : Buf) : Buf := putWord k 0 0 data

/-- The message with the number `c` stored in word `k`. -/
def storeWord (k c : Nat) (data : Buf) : Buf := putWord k (UInt8.ofNat (c / 256)) (UInt8.ofNat c) data

/-- IPv4 pseudo header: source, destination, zero, protocol, 16-bit length. -/
def pseudo4 (src dst : Buf) (protocol : UInt8) (len : Nat) : Buf :=
  src ++ dst ++ [0, protocol, UInt8.ofNat (len / 256), UInt8.ofNat len]

/-- IPv6 pseudo header: source, destination, 32-bit length, three zeros, protocol. -/
def pseudo6 (src dst : Buf) (protocol : UInt8) (len : Nat) : Buf :=
  src ++ dst ++ [UInt8.ofNat (len / 2 ^ 24), UInt8.ofNat (len / 2 ^ 16), UInt8.ofNat (len / 256),
    UInt8.ofNat len, 0, 0, 0, protocol]

/-! ## Incremental update (RFC 1624) -/

/-- RFC 1624, equation 3, `HC' = ~(~HC + ~m + m')`: the new checksum when a word `m` of the message
becomes `m'`. -/
def rfc1624 (hc m m' : Nat) : Nat := 65535 - ocAdd (ocAdd (65535 - hc) (65535 - m)) m'

/-- The same for several words, one after the other. -/
def rfc1624All (hc : Nat) (changes : List (Nat × Nat)) : Nat :=
  changes.foldl (fun h c => rfc1624 h c.1 c.2) hc

/-- What an address translator changes: the words of the addresses, and the ports. -/
def natChanges (src src' dst dst' : Buf) (sport sport' dport dport' : Nat) : List (Nat × Nat) :=
  (words16 src).zip (words16 src') ++ (words16 dst).zip (words16 dst') ++ [(sport, sport'), (dport, dport')]

/-! ## Corruption -/

/-- Two different messages of the same length that agree except in `n` consecutive bits. -/
def Burst (n : Nat) (p q : Buf) : Prop :=
  p ≠ q ∧ ∃ before x y after, bitsOf p = before ++ x ++ after ∧ bitsOf q = before ++ y ++ after ∧
    x.length = n ∧ y.length = n

/-- A message read as one big-endian number, with a zero byte appended if its length is odd. -/
def messageNat (data : Buf) : Nat := beNat (if data.length % 2 = 0 then data else data ++ [0])

end Verif.Spec
