import Verif.Model.Packet
import Verif.Model.Primitive

/-!
# Answering ARP requests

Not code of the crate: a program that uses it, for C139.
-/

namespace Verif.Spec

/-- What a reader sees of an ARP packet in an Ethernet frame: the addresses of the frame, the four fields before the operation,
the operation, and the hardware and protocol addresses of sender and target. -/
structure ArpSeen where
  dst : MacAddr
  src : MacAddr
  hwType : Val
  protoType : Val
  hwLen : Val
  protoLen : Val
  op : Nat
  senderHw : MacAddr
  sender : Ipv4Addr
  targetHw : MacAddr
  target : Ipv4Addr

/-- Reads a frame: `none` if it is too short or its type is not 0x0806. -/
def readArp (m : Mode) (frame : Buf) : Res (Option ArpSeen) :=
  match ethernet.newPacket frame with
  | none => .ok none
  | some _ => do
    let ty ← ethernet.getAs Newtype.ofPrimitive m frame 2
    if ty ≠ 0x0806 then return none
    let body ← ethernet.payload m frame
    match arp.newPacket body with
    | none => return none
    | some _ =>
      let dst ← ethernet.getAs MacAddr.ofPrimitive m frame 0
      let src ← ethernet.getAs MacAddr.ofPrimitive m frame 1
      let hwType ← arp.get m body 0
      let protoType ← arp.get m body 1
      let hwLen ← arp.get m body 2
      let protoLen ← arp.get m body 3
      let op ← arp.getAs Newtype.ofPrimitive m body 4
      let senderHw ← arp.getAs MacAddr.ofPrimitive m body 5
      let sender ← arp.getAs Ipv4Addr.ofPrimitive m body 6
      let targetHw ← arp.getAs MacAddr.ofPrimitive m body 7
      let target ← arp.getAs Ipv4Addr.ofPrimitive m body 8
      return some ⟨dst, src, hwType, protoType, hwLen, protoLen, op, senderHw, sender, targetHw, target⟩

/-- Answers requests (operation 1) for the address `ip`: the setters of the addresses and of the operation are called, and the
ARP packet is copied back through `payload_mut()`. -/
def answerArp (m : Mode) (mac : MacAddr) (ip : Ipv4Addr) (frame : Buf) : Res (Option Buf) := do
  match ← readArp m frame with
  | none => return none
  | some r =>
    if r.op ≠ 1 ∨ r.target ≠ ip then return none
    let body ← ethernet.payload m frame
    let body ← arp.setAs Newtype.toPrimitive m body 4 2
    let body ← arp.setAs MacAddr.toPrimitive m body 7 r.senderHw
    let body ← arp.setAs Ipv4Addr.toPrimitive m body 8 r.sender
    let body ← arp.setAs MacAddr.toPrimitive m body 5 mac
    let body ← arp.setAs Ipv4Addr.toPrimitive m body 6 ip
    let frame ← ethernet.payloadMutCopy m frame body
    let frame ← ethernet.setAs MacAddr.toPrimitive m frame 0 r.src
    let frame ← ethernet.setAs MacAddr.toPrimitive m frame 1 mac
    return some frame

end Verif.Spec
