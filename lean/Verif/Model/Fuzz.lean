import Verif.Model.Protocols

/-!
# The fuzz targets (`fuzz/fuzzers/*.rs`)

Each target gets an arbitrary byte string and must neither panic nor run forever. Reading the bytes of
a slice (`for b in ... { drop(*b) }`) has no effect and is left out.
-/

namespace Verif

/-- Runs a target on the packet, if the buffer is long enough for one. -/
def fuzzWith (d : Decl) (data : Buf) (body : Buf → Res Unit) : Res Unit :=
  match d.new data with
  | some p => body p
  | none => .ok ()

/-- `fuzz/fuzzers/ether.rs:7-17`. -/
def fuzzEther (m : Mode) (data : Buf) : Res Unit := fuzzWith ethernet data fun eth => do
  let _ ← ethernet.get m eth 1
  let _ ← ethernet.get m eth 0
  let _ ← ethernet.get m eth 2
  let _ ← ethernet.payload m eth
  .ok ()

/-- `fuzz/fuzzers/gre.rs:6-28`. -/
def fuzzGre (m : Mode) (data : Buf) : Res Unit := fuzzWith gre data fun p => do
  let _ ← gre.getRaw m p 9
  let _ ← gre.getRaw m p 10
  let _ ← gre.getRaw m p 11
  let _ ← gre.getRaw m p 12
  let _ ← gre.getRaw m p 13
  .ok ()

/-- `fuzz/fuzzers/ipv4.rs:7-17`. -/
def fuzzIpv4 (m : Mode) (data : Buf) : Res Unit := fuzzWith ipv4 data fun p => do
  let _ ← ipv4.getRaw m p 13
  let _ ← ipv4.payload m p
  .ok ()

/-- `for o in options { o.payload(); }`: the loop of `Codec.collect` with another body. -/
def fuzzOptions (m : Mode) (raw : Buf) : Res Unit := do
  let body : Codec := { tcpOption.codec with
    fromPacket := fun m o => (fun _ => Val.num 0) <$> tcpOption.payload m o }
  let _ ← body.collect m raw.length raw
  .ok ()

/-- `fuzz/fuzzers/tcp.rs:7-17`; `get_options_iter()` iterates over the raw slice of the options
(`gen.rs:244-251`). -/
def fuzzTcp (m : Mode) (data : Buf) : Res Unit := fuzzWith tcp data fun p => do
  let raw ← tcp.getRaw m p 10
  fuzzOptions m raw
  let _ ← tcp.payload m p
  .ok ()

/-- `fuzz/fuzzers/udp.rs:7-13`. -/
def fuzzUdp (m : Mode) (data : Buf) : Res Unit := fuzzWith udp data fun p => do
  let _ ← udp.payload m p
  .ok ()

/-- `fuzz/fuzzers/vlan.rs:7-13`. -/
def fuzzVlan (m : Mode) (data : Buf) : Res Unit := fuzzWith vlan data fun p => do
  let _ ← vlan.payload m p
  .ok ()

end Verif
