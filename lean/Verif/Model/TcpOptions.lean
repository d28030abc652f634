import Verif.Model.Protocols
import Verif.Model.Checksum

/-!
# `TcpOption` constructors (`src/tcp.rs:118-192`)

A `TcpOption` struct is the value `.list [number, length, data]`.
-/

namespace Verif

/-- A `TcpOption { number, length, data }` literal. -/
def mkTcpOption (number : Nat) (length : List Nat) (data : Buf) : Val :=
  .list [.nums [number], .nums length, .nums (data.map (·.toNat))]

/-- `TcpOption::nop`, `src/tcp.rs:120-126`. -/
def tcpNop : Val := mkTcpOption 1 [] []

/-- `TcpOption::timestamp`, `src/tcp.rs:131-141`. -/
def tcpTimestamp (my their : Nat) : Val := mkTcpOption 8 [10] (octets32 my ++ octets32 their)

/-- `TcpOption::mss`, `src/tcp.rs:145-154`. -/
def tcpMssOption (val : Nat) : Val := mkTcpOption 2 [4] (octets16 val)

/-- `TcpOption::wscale`, `src/tcp.rs:158-164`. -/
def tcpWscale (val : UInt8) : Val := mkTcpOption 3 [3] [val]

/-- `TcpOption::sack_perm`, `src/tcp.rs:169-175`. -/
def tcpSackPerm : Val := mkTcpOption 4 [2] []

/-- `a + b` on `u8`. -/
def u8add (m : Mode) (a b : Nat) : Res Nat :=
  if a + b < 256 then .ok (a + b)
  else match m with
    | .debug => panic
    | .release => .ok ((a + b) % 256)

/-- `TcpOption::selective_ack`, `src/tcp.rs:181-191`: the length is `1 + 1 + data.len() as u8`,
where `as u8` truncates. -/
def tcpSelectiveAck (m : Mode) (acks : List Nat) : Res Val := do
  let data := acks.flatMap octets32
  let length ← u8add m (1 + 1) (data.length % 256)
  .ok (mkTcpOption 5 [length] data)

end Verif
