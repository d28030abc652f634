import Verif.Proofs.Debug
import Verif.Props.Macro

/-!
# C79: the text of `{:?}` on a packet

`Plain` and `fieldTexts` are in `Verif/Spec/Debug.lean`; how one value is printed is the parameter `fmt`.
-/

namespace Verif

/-- A packet of the UDP layout, and integers printed in decimal. -/
def debugSample : Buf := [0x13, 0x88, 0, 53, 0, 9, 0xab, 0xcd, 7]

/-- `{:?}` of an integer (other values do not occur in the example). -/
def debugNum (_ : Field) : Val → List Char
  | .num n => (toString n).toList
  | _ => []

/-- C79: `{:?}` writes the name of the packet type, then in braces `field : value, ` for every field but
the payload, in the order of declaration; it panics exactly when one of those getters does, with the
failure of the first. -/
theorem C79_text (d : Decl) (base : String) (mutable : Bool) (fmt : Field → Val → List Char) (m : Mode)
    (buf : Buf) (hb : Plain base.toList) (hn : ∀ f ∈ d.fields, Plain f.name.toList) :
    d.debugText base mutable fmt m buf =
      (fieldTexts fmt (d.fields.zip ((List.range d.fields.length).map (d.get m buf)))).map fun t =>
        (if mutable then "Mutable".toList else []) ++ (base.toList ++ ("Packet".toList ++
          (" { ".toList ++ (t ++ " }".toList)))) :=
  debugText_eq d base mutable fmt m buf hb hn

example : udp.debugText "Udp" true debugNum .release debugSample =
    .ok "MutableUdpPacket { source : 5000, destination : 53, length : 9, checksum : 43981,  }".toList := by
  decide +kernel

example : udp.debugText "Udp" false debugNum .debug (debugSample.take 7) = .error .panic := by decide +kernel

/-- C79: it succeeds exactly when all getters but that of the payload do. -/
theorem C79_ok_iff (d : Decl) (base : String) (mutable : Bool) (fmt : Field → Val → List Char) (m : Mode)
    (buf : Buf) (hb : Plain base.toList) (hn : ∀ f ∈ d.fields, Plain f.name.toList) :
    (∃ t, d.debugText base mutable fmt m buf = .ok t) ↔
      ∀ (k : Nat) (f : Field), d.fields[k]? = some f → f.payload = false → ∃ v, d.get m buf k = .ok v :=
  debugText_ok_iff d base mutable fmt m buf hb hn

example : ∃ t, udp.debugText "Udp" true debugNum .release debugSample = .ok t := ⟨_, rfl⟩

/-- C79: two packets whose getters agree on all fields but the payload are printed alike: the payload is
not shown. -/
theorem C79_payload_hidden (d : Decl) (base : String) (mutable : Bool) (fmt : Field → Val → List Char)
    (m : Mode) (buf buf' : Buf) (hb : Plain base.toList) (hn : ∀ f ∈ d.fields, Plain f.name.toList)
    (h : ∀ (k : Nat) (f : Field), d.fields[k]? = some f → f.payload = false →
      d.get m buf k = d.get m buf' k) :
    d.debugText base mutable fmt m buf = d.debugText base mutable fmt m buf' :=
  debugText_congr d base mutable fmt m buf buf' hb hn h

example : udp.debugText "Udp" true debugNum .release debugSample =
    udp.debugText "Udp" true debugNum .release (debugSample ++ [1, 2, 3]) := by decide +kernel

/-- C79: no name in the crate contains a brace, so all of the above holds for its packets. -/
theorem C79_crate (e : String × List RawField × Decl) (h : e ∈ crateSources) :
    Plain e.1.toList ∧ ∀ f ∈ e.2.2.fields, Plain f.name.toList := by
  have key : ∀ e ∈ crateSources, Plain e.1.toList ∧ ∀ f ∈ e.2.2.fields, Plain f.name.toList := by
    decide +kernel
  exact key e h

example : ("udp::Udp", Source.srcUdp, udp) ∈ crateSources := by simp [crateSources]

end Verif
