import Verif.Proofs.Names
import Verif.Spec.Names

/-! # C51: names of protocol numbers, ethertypes and QUIC frame types -/

namespace Verif

/-- C51: for every protocol number (in fact for every number), `Display` prints the name of a
constant that has exactly this number if there is one, and `unknown` otherwise; `unknown` is not the
name of a constant. -/
theorem C51_ip_names (v : Nat) :
    ((∃ n, (n, v) ∈ ipConsts) → (ipDisplay v, v) ∈ ipConsts) ∧
    (ipDisplay v = "unknown" ↔ ¬ ∃ n, (n, v) ∈ ipConsts) := by
  have h : TablesAgree ipConsts ipArms := by decide +kernel
  refine ⟨fun ⟨n, hn⟩ => tables_named h hn, ?_⟩
  exact (tables_unknown h v).trans not_exists.symm

example : (ipDisplay 6, 6) ∈ ipConsts ∧ ipDisplay 6 = "Tcp" ∧ ipDisplay 58 = "Icmpv6" ∧
    ipDisplay 143 = "unknown" := by decide +kernel

/-- C51: two different named protocol numbers never print the same name. -/
theorem C51_ip_names_distinct (v w : Nat) (hv : ∃ n, (n, v) ∈ ipConsts)
    (h : ipDisplay v = ipDisplay w) : v = w := by
  have hw : ∃ n, (n, w) ∈ ipConsts := by
    apply Classical.byContradiction
    intro hn
    have := ((C51_ip_names w).2.2 hn)
    rw [← h] at this
    exact (C51_ip_names v).2.1 this hv
  have h1 := (C51_ip_names v).1 hv
  have h2 := (C51_ip_names w).1 hw
  rw [← h] at h2
  have inj : ∀ a ∈ ipConsts, ∀ b ∈ ipConsts, a.1 = b.1 → a.2 = b.2 := by decide +kernel
  exact inj _ h1 _ h2 rfl

example : ∃ n, (n, 132) ∈ ipConsts := ⟨"Sctp", by decide +kernel⟩

/-- C51: the numbers that have a name are 0..142 and 253..255, and the constants carry the numbers
the registry assigns. -/
theorem C51_ip_numbers :
    (∀ v, (∃ n, (n, v) ∈ ipConsts) ↔ v ≤ 142 ∨ (253 ≤ v ∧ v ≤ 255)) ∧
    (∀ r ∈ Spec.ianaProtocols, r ∈ ipConsts ∧ ipDisplay r.2 = r.1) := by
  refine ⟨fun v => ⟨?_, ?_⟩, by decide +kernel⟩
  · rintro ⟨n, hn⟩
    have h : ∀ c ∈ ipConsts, c.2 ≤ 142 ∨ (253 ≤ c.2 ∧ c.2 ≤ 255) := by decide +kernel
    exact h _ hn
  · intro hv
    have h : ∀ v < 256, v ≤ 142 ∨ (253 ≤ v ∧ v ≤ 255) → (ipDisplay v, v) ∈ ipConsts := by
      decide +kernel
    exact ⟨_, h v (by omega) hv⟩

example : ("Udp", 17) ∈ Spec.ianaProtocols := by decide +kernel

/-- C51: for every ethertype, `Display` prints the name of the constant that has exactly this value
if there is one, and `unknown` otherwise. -/
theorem C51_ether_names (v : Nat) :
    ((∃ n, (n, v) ∈ etherConsts) → (etherDisplay v, v) ∈ etherConsts) ∧
    (etherDisplay v = "unknown" ↔ ¬ ∃ n, (n, v) ∈ etherConsts) := by
  have h : TablesAgree etherConsts etherArms := by decide +kernel
  refine ⟨fun ⟨n, hn⟩ => tables_named h hn, ?_⟩
  exact (tables_unknown h v).trans not_exists.symm

example : (etherDisplay 0x86DD, 0x86DD) ∈ etherConsts ∧ etherDisplay 0x0666 = "unknown" := by
  decide +kernel

/-- C51: two different named ethertypes never print the same name. -/
theorem C51_ether_names_distinct (v w : Nat) (hv : ∃ n, (n, v) ∈ etherConsts)
    (h : etherDisplay v = etherDisplay w) : v = w := by
  have hw : ∃ n, (n, w) ∈ etherConsts := by
    apply Classical.byContradiction
    intro hn
    have := ((C51_ether_names w).2.2 hn)
    rw [← h] at this
    exact (C51_ether_names v).2.1 this hv
  have h1 := (C51_ether_names v).1 hv
  have h2 := (C51_ether_names w).1 hw
  rw [← h] at h2
  have inj : ∀ a ∈ etherConsts, ∀ b ∈ etherConsts, a.1 = b.1 → a.2 = b.2 := by decide +kernel
  exact inj _ h1 _ h2 rfl

example : ∃ n, (n, 0x8100) ∈ etherConsts := ⟨"Vlan", by decide +kernel⟩

/-- C51: the ethertype constants are exactly the registered values listed in the specification, and
each prints as its own name. -/
theorem C51_ether_numbers :
    (∀ c, c ∈ etherConsts ↔ c ∈ Spec.ieeeEtherTypes) ∧
    (∀ r ∈ Spec.ieeeEtherTypes, etherDisplay r.2 = r.1) := by
  refine ⟨fun c => ⟨fun h => ?_, fun h => ?_⟩, by decide +kernel⟩
  · have : ∀ c ∈ etherConsts, c ∈ Spec.ieeeEtherTypes := by decide +kernel
    exact this c h
  · have : ∀ c ∈ Spec.ieeeEtherTypes, c ∈ etherConsts := by decide +kernel
    exact this c h

example : ("Arp", 0x0806) ∈ Spec.ieeeEtherTypes := by decide +kernel

/-- C51: the QUIC frame type `ty` prints as the RFC 9000 frame whose type range contains it, and as
`unknown` exactly when no frame has that type. -/
theorem C51_frame_names (ty : Nat) :
    (∀ r ∈ Spec.quicFrames, frameTypeDisplay ty = r.1 ↔ r.2.1 ≤ ty ∧ ty ≤ r.2.2) ∧
    (frameTypeDisplay ty = "unknown" ↔ ∀ r ∈ Spec.quicFrames, ¬ (r.2.1 ≤ ty ∧ ty ≤ r.2.2)) := by
  by_cases h : ty < 0x20
  · have : ∀ ty < 0x20,
        (∀ r ∈ Spec.quicFrames, frameTypeDisplay ty = r.1 ↔ r.2.1 ≤ ty ∧ ty ≤ r.2.2) ∧
        (frameTypeDisplay ty = "unknown" ↔
          ∀ r ∈ Spec.quicFrames, ¬ (r.2.1 ≤ ty ∧ ty ≤ r.2.2)) := by decide +kernel
    exact this ty h
  · have hu : frameTypeDisplay ty = "unknown" := by
      unfold frameTypeDisplay
      repeat (first | rfl | rw [if_neg (by omega)])
    have hb : ∀ r ∈ Spec.quicFrames, r.2.2 < 0x20 ∧ r.1 ≠ "unknown" := by decide +kernel
    rw [hu]
    refine ⟨fun r hr => ⟨fun e => absurd e.symm (hb r hr).2, fun e => ?_⟩, fun _ r hr e => ?_, fun _ => rfl⟩
    · have := (hb r hr).1; omega
    · have := (hb r hr).1; omega

example : frameTypeDisplay 0x0b = "stream" ∧ frameTypeDisplay 0x1f = "unknown" := by decide +kernel

end Verif
