import Verif.Proofs.CallCount
import Verif.Props.CrateLengths
import Verif.Props.Offsets
import Verif.Spec.Macro
import Verif.Model.Protocols

/-!
# C126: how many getters a getter calls

`CallsInside`, `positionCalls` and `countMeaning` are in `Spec/CallCount`; `Reads` is in `Spec/LengthGrammar`.
-/

set_option autoImplicit false

namespace Verif.Props
open Spec LengthText

/-- **C126** as stated: reading a field calls at most as many getters as the square of the number of fields,
for every accepted struct whose lengths use earlier fields only. -/
def C126_statement : Prop :=
  ∀ (fields : List RawField) (d : Decl) (inside : String → Nat),
    derivePacket (lengthTextOk tokenise) true (.struct fields) = .ok (shapes d) →
    (∀ f ∈ fields, LengthIs tokenise fields f (readLength f)) → LooksBack fields readLength →
    CallsInside fields (d.fields.map (·.ty)) readLength inside →
    ∀ f ∈ fields, ∀ n, f.name = some n → inside n ≤ fields.length ^ 2

/-- **C126**: how often the bodies of the generated methods evaluate the position and the length of their
field; the loops do not. `get_<field>` of a user-defined type calls `get_arg<i>`, which has the body of a
getter of an integer, for every argument. -/
theorem C126_bodies (size : Nat) :
    usesAll intGetBody = (1, 0) ∧ usesAll miscGetBody = (0, 0) ∧ usesAll rawBody = (1, 1) ∧
    usesAll (vecGetBody size) = (1, 1) ∧ usesAll (vecGetLoop size) = (0, 0) ∧
    usesAll (payloadBody (payloadBounds true true).1 (payloadBounds true true).2) = (2, 1) ∧
    usesAll (payloadBody (payloadBounds true false).1 (payloadBounds true false).2) = (1, 0) ∧
    usesAll (payloadBody (payloadBounds false false).1 (payloadBounds false false).2) = (0, 0) := by
  refine ⟨?_, ?_, ?_, ?_, ?_, ?_, ?_, ?_⟩ <;>
  simp [usesAll, RustStmt.uses, RustExp.uses, intGetBody, miscGetBody, rawBody, vecGetBody, vecGetLoop, payloadBody,
    payloadBounds, endExp]

/-- **C126**: while the expression that the macro generates for the position of a field is evaluated in a
packet, at most `positionCalls` getters are called, directly and by other getters; exactly so many if no length
has an `if` and nothing fails. -/
theorem C126_running_partial (tok : String → Option (List TT)) (fields : List RawField) (width : RawField → Nat)
    (k : Nat) (len : RawField → Option RExpr)
    (has : ∀ k ∈ keywords, ∀ f ∈ fields, f.name ≠ some k) (hdots : ∀ f ∈ fields, f.name ≠ some dots)
    (h : ∀ f ∈ fields.take k, LengthIs tok fields f (len f)) (inside : String → Nat)
    (m : Mode) (d : Decl) (buf : Buf) :
    ∃ e, Reads 1 (fieldOffset tok fields width k) e ∧ (∀ e', Reads 1 (fieldOffset tok fields width k) e' → e' = e) ∧
      (e.value (countMeaning (packetMeaning m d buf) inside)).val = e.value (packetMeaning m d buf) ∧
      (e.value (countMeaning (packetMeaning m d buf) inside)).calls ≤ positionCalls inside fields len k ∧
      ((∀ f ∈ fields.take k, ∀ x, len f = some x → x.value noIf = true) →
        ∀ v, e.value (packetMeaning m d buf) = .val (.ok v) →
        (e.value (countMeaning (packetMeaning m d buf) inside)).calls = positionCalls inside fields len k) := by
  obtain ⟨e, h1, h2, h3⟩ := C111_position_partial tok fields width k len has hdots h
  refine ⟨e, h1, h2, count_val _ _ _, ?_, fun hif v hv => ?_⟩
  · rw [← positionOf_calls inside fields width, ← h3]
    exact count_le _ (fun _ => Nat.le_refl _) e
  · rw [← positionOf_calls inside fields width, ← h3]
    refine count_eq m d buf inside e ?_ (by rw [hv]; trivial)
    rw [h3]
    exact positionOf_noIf fields width len k hif

/-- Fields `l: u8, #[length = "l"] v: Vec<u8>` for pairs of names. -/
def pairFields (ps : List (String × String)) : List RawField :=
  ps.flatMap fun p => [Source.field p.1 [] "u8", Source.field p.2 [Source.length p.1] "Vec < u8 >"]

theorem pairFields_get (ps : List (String × String)) (rest : List RawField) (i : Nat) (p : String × String)
    (h : ps[i]? = some p) :
    (pairFields ps ++ rest)[2 * i]? = some (Source.field p.1 [] "u8") ∧
    (pairFields ps ++ rest)[2 * i + 1]? = some (Source.field p.2 [Source.length p.1] "Vec < u8 >") := by
  induction ps generalizing i with
  | nil => simp at h
  | cons q ps ih =>
    cases i with
    | zero => simp at h; subst h; exact ⟨rfl, rfl⟩
    | succ i =>
      obtain ⟨h1, h2⟩ := ih i (by simpa using h)
      exact ⟨h1, h2⟩

/-- **C126** is false in general: after `n` pairs of a length and a vector of this length, reading the length of
the next pair calls `2 ^ n - 1` getters, and so does the position of what follows. -/
theorem C126_pairs (ps : List (String × String)) (rest : List RawField) (tys : List Ty)
    (len : RawField → Option RExpr) (inside : String → Nat) (hne : ∀ p ∈ ps, p.1 ≠ p.2)
    (hty : ∀ i < ps.length, ∃ q, tys[2 * i]? = some (.prim q))
    (hlen : ∀ p ∈ ps, len (Source.field p.1 [] "u8") = none ∧
      len (Source.field p.2 [Source.length p.1] "Vec < u8 >") = some (.name p.1))
    (hc : CallsInside (pairFields ps ++ rest) tys len inside) :
    (∀ i ≤ ps.length, positionCalls inside (pairFields ps ++ rest) len (2 * i) = 2 ^ i - 1) ∧
    ∀ i p, ps[i]? = some p → inside p.1 = 2 ^ i - 1 := by
  have hin : ∀ i p, ps[i]? = some p → positionCalls inside (pairFields ps ++ rest) len (2 * i) = 2 ^ i - 1 →
      inside p.1 = 2 ^ i - 1 := by
    intro i p hp hpos
    obtain ⟨hi, -⟩ := List.getElem?_eq_some_iff.mp hp
    obtain ⟨q, hq⟩ := hty i hi
    have := hc (2 * i) _ p.1 _ (pairFields_get ps rest i p hp).1 rfl hq
    rw [this, hpos]
    simp [getterUses]
  have hall : ∀ i ≤ ps.length, positionCalls inside (pairFields ps ++ rest) len (2 * i) = 2 ^ i - 1 := by
    intro i
    induction i with
    | zero => intro _; exact positionCalls_zero _ _ _
    | succ i ih =>
      intro hi
      have hp : ps[i]? = some (ps[i]'(by omega)) := List.getElem?_eq_getElem (by omega)
      generalize ps[i]'(by omega) = p at hp
      have hmem : p ∈ ps := List.mem_of_getElem? hp
      have h0 := ih (by omega)
      have h1 := hin i p hp h0
      obtain ⟨f1, f2⟩ := pairFields_get ps rest i p hp
      obtain ⟨l1, l2⟩ := hlen p hmem
      have hname : p.1 ∈ fieldNames (pairFields ps ++ rest) (some p.2) := by
        simp only [fieldNames, List.mem_filter, List.mem_filterMap]
        exact ⟨⟨_, List.mem_of_getElem? f1, rfl⟩, by simpa using (hne p hmem).symm⟩
      have hl : lengthCalls inside (pairFields ps ++ rest) len (2 * i + 1)
          (Source.field p.2 [Source.length p.1] "Vec < u8 >") = 1 + inside p.1 := by
        simp only [lengthCalls, l2, lengthValue]
        show (callMeaning inside).cast (Meaning.name (Meaning.withFields _ (fieldNames _ (some p.2))) p.1) _ = _
        simp only [Meaning.withFields, hname, if_true]
        simp [Meaning.withDots, callMeaning, getterName_get, show "self" ≠ dots by decide]
      rw [show 2 * (i + 1) = 2 * i + 1 + 1 by omega, positionCalls_succ _ _ _ f2, positionCalls_succ _ _ _ f1, h0, hl, h1]
      simp only [lengthCalls, l1]
      have := Nat.two_pow_pos i
      rw [Nat.pow_succ]
      omega
  refine ⟨hall, fun i p hp => hin i p hp (hall i ?_)⟩
  have := (List.getElem?_eq_some_iff.mp hp).1
  omega

/-- What the macro needs to know of the lengths in `C126_pairs`. -/
theorem C126_pairs_length (tok : String → Option (List TT)) (fields : List RawField) (l v : String)
    (htok : tok l = some [.ident l]) (hk : l ∉ keywords) :
    LengthIs tok fields (Source.field l [] "u8") none ∧
    LengthIs tok fields (Source.field v [Source.length l] "Vec < u8 >") (some (.name l)) := by
  refine ⟨?_, l, _, ⟨[], [], rfl, by simp⟩, htok, reads_lower (.name l hk) (by decide), trivial, ?_⟩
  · intro s hs
    cases hs
  · simp [dotsWhole, TT.dotsWhole, argumentEnds]

/-- Nine pairs and a payload. -/
def ninePairs : List (String × String) :=
  [("a", "av"), ("b", "bv"), ("c", "cv"), ("d", "dv"), ("e", "ev"), ("f", "fv"), ("g", "gv"), ("h", "hv"), ("i", "iv")]

/-- The struct of nine pairs and a payload. -/
def nineFields : List RawField := pairFields ninePairs ++ [Source.field "payload" [Source.payload] "Vec < u8 >"]

/-- The same as a declaration. -/
def nineDecl : Decl :=
  ⟨(ninePairs.mapIdx fun i p => [fprim p.1 8, fbytes p.2 (lenNum (2 * i) id)]).flatten ++ [fpayloadRest "payload"]⟩

/-- The calls inside its getters. -/
def nineCalls (n : String) : Nat :=
  if n = "payload" then 511 else
  match ninePairs.findIdx? (fun p => p.1 = n) with
  | some i => 2 ^ i - 1
  | none =>
    match ninePairs.findIdx? (fun p => p.2 = n) with
    | some i => 2 ^ (i + 1) - 1
    | none => 0

/-- The check of `CallsInside`. -/
def callsCheck (fields : List RawField) (tys : List Ty) (inside : String → Nat) : Bool :=
  (List.range fields.length).all fun k =>
    match fields[k]?, tys[k]? with
    | some f, some ty =>
      match f.name with
      | some n => inside n == (getterUses ty).1 * positionCalls inside fields readLength k +
          (getterUses ty).2 * lengthCalls inside fields readLength k f
      | none => true
    | _, _ => true

theorem callsCheck_is {fields : List RawField} {tys : List Ty} {inside : String → Nat}
    (h : callsCheck fields tys inside = true) : CallsInside fields tys readLength inside := by
  intro k f n ty hf hn hty
  have hk := (List.getElem?_eq_some_iff.mp hf).1
  have := List.all_eq_true.mp h k (List.mem_range.mpr hk)
  simpa [hf, hty, hn] using this

/-- The check of `LooksBack`. -/
def backCheck (fields : List RawField) : Bool :=
  (List.range fields.length).all fun k =>
    match fields[k]? with
    | some f =>
      match readLength f with
      | some e => (mentions (fieldNames fields f.name) e).all fun n => (fields.take k).any fun g => g.name == some n
      | none => true
    | none => true

theorem backCheck_is {fields : List RawField} (h : backCheck fields = true) : LooksBack fields readLength := by
  intro k f e hf he n hn
  have hk := (List.getElem?_eq_some_iff.mp hf).1
  have := List.all_eq_true.mp h k (List.mem_range.mpr hk)
  simp only [hf, he, List.all_eq_true] at this
  obtain ⟨g, hg, hgn⟩ := List.any_eq_true.mp (this n hn)
  obtain ⟨j, hj, rfl⟩ := List.mem_take_iff_getElem.mp hg
  exact ⟨j, _, by omega, List.getElem?_eq_getElem (by omega), by simpa using hgn⟩

/-- C126 is false: in a struct of 19 fields the getter of the payload calls 511 getters. -/
theorem C126_false : ¬ C126_statement := by
  intro h
  have := h nineFields nineDecl nineCalls (by decide +kernel)
    (fun f hf => lengthCheck_is (List.all_eq_true.mp (by decide +kernel : nineFields.all (lengthCheck nineFields) = true) f hf))
    (backCheck_is (by decide +kernel)) (callsCheck_is (by decide +kernel))
    (Source.field "payload" [Source.payload] "Vec < u8 >") (by simp [nineFields]) "payload" rfl
  exact absurd this (by decide +kernel)

/-- The numbers of getters called inside the getters of a struct of the crate, in the order of the fields, where
they are not all zero. -/
def crateCalls : List (String × List Nat) := [
  ("ipv4::Ipv4", [0, 0, 0, 0, 0, 0, 0, 0, 0, 0, 0, 0, 0, 1, 3]),
  ("ipv4::Ipv4Option", [0, 0, 0, 1, 3]),
  ("ipv6::Ipv6", [0, 0, 0, 0, 0, 0, 0, 0, 1]),
  ("ipv6::Extension", [0, 0, 1]),
  ("ipv6::Routing", [0, 0, 0, 0, 1]),
  ("tcp::Tcp", [0, 0, 0, 0, 0, 0, 0, 0, 0, 0, 1, 1]),
  ("tcp::TcpOption", [0, 1, 3]),
  ("icmpv6::NdpOption", [0, 0, 1]),
  ("gre::Gre", [0, 0, 0, 0, 0, 0, 0, 0, 0, 2, 4, 5, 6, 7, 7]),
  ("quic::VersionNegotiation", [0, 0, 0, 0, 1, 1, 3, 3]),
  ("quic::Initial", [0, 0, 0, 0, 0, 0, 0, 1, 1, 3, 6, 13, 26, 27, 82, 82]),
  ("quic::ZeroRtt", [0, 0, 0, 0, 0, 0, 0, 1, 1, 3, 6, 7, 22, 22]),
  ("quic::Handshake", [0, 0, 0, 0, 0, 0, 0, 1, 1, 3, 6, 7, 22, 22]),
  ("quic::Retry", [0, 0, 0, 0, 0, 0, 1, 1, 3, 3]),
  ("quic::OneRtt", [0, 0, 0, 0, 0, 0, 0, 1, 1]),
  ("quic::Ack", [0, 0, 0, 0, 0, 1, 3, 3]),
  ("quic::Crypto", [0, 0, 0, 1, 1]),
  ("quic::NewToken", [0, 0, 1, 1]),
  ("quic::Stream", [0, 0, 1, 3, 11, 11]),
  ("quic::NewConnectionId", [0, 0, 0, 0, 1, 1, 1]),
  ("quic::ConnectionClose", [0, 0, 1, 2, 5, 5])]

/-- The same as a function of the name of the field. -/
def callsOf (e : String × List RawField × Decl) (n : String) : Nat :=
  match crateCalls.lookup e.1 with
  | some row => (row[(e.2.1.findIdx fun f => f.name == some n)]?).getD 0
  | none => 0

theorem crate_calls : (crateSources.all fun e =>
    callsCheck e.2.1 (e.2.2.fields.map (·.ty)) (callsOf e) && backCheck e.2.1 &&
    e.2.1.length == e.2.2.fields.length && (e.2.1.all fun f => match f.name with
      | some n => decide (callsOf e n ≤ e.2.1.length ^ 2)
      | none => true) &&
    decide (positionCalls (callsOf e) e.2.1 readLength e.2.1.length ≤ e.2.1.length ^ 2)) = true := by
  decide +kernel

/-- **C126** for the crate: the numbers of getters called inside the getters of a struct are those of the table
above, and no others satisfy the equations; none is larger than the square of the number of fields, nor is
that of `packet_size`. -/
theorem C126_crate (e : String × List RawField × Decl) (he : e ∈ crateSources) :
    CallsInside e.2.1 (e.2.2.fields.map (·.ty)) readLength (callsOf e) ∧
    ∀ inside, CallsInside e.2.1 (e.2.2.fields.map (·.ty)) readLength inside →
      (∀ f ∈ e.2.1, ∀ n, f.name = some n → inside n = callsOf e n ∧ inside n ≤ e.2.1.length ^ 2) ∧
      positionCalls inside e.2.1 readLength e.2.1.length ≤ e.2.1.length ^ 2 := by
  have h := List.all_eq_true.mp crate_calls e he
  simp only [Bool.and_eq_true, beq_iff_eq, decide_eq_true_eq] at h
  obtain ⟨⟨⟨⟨h1, h2⟩, h3⟩, h4⟩, h5⟩ := h
  have hc := callsCheck_is h1
  refine ⟨hc, fun inside hin => ?_⟩
  have hu := callsInside_unique (backCheck_is h2) (by simp [h3]) hin hc
  refine ⟨fun f hf n hn => ?_, ?_⟩
  · obtain ⟨k, hk⟩ := List.getElem?_of_mem hf
    have := hu k f n hk hn
    refine ⟨this, ?_⟩
    have h6 := List.all_eq_true.mp h4 f hf
    rw [hn] at h6
    rw [this]
    simpa using h6
  · rw [(positionCalls_agree (backCheck_is h2) (c' := callsOf e) (K := e.2.1.length)
      (fun j _ f n hf hn => hu j f n hf hn) _ (Nat.le_refl _)).1]
    exact h5

/-- **C126**: `get_frames` of an `Initial` packet calls 82 getters, whichever way they are counted. -/
theorem C126_initial (inside : String → Nat)
    (h : CallsInside Source.srcQuicInitial (initial.fields.map (·.ty)) readLength inside) : inside "frames" = 82 := by
  have := (C126_crate ("quic::Initial", Source.srcQuicInitial, initial) (by simp [crateSources])).2 inside h
  rw [(this.1 (Source.field "frames" [Source.length "varint(&length) - packet_number.len()"] "Vec < u8 >")
    (by simp [Source.srcQuicInitial]) "frames" rfl).1]
  decide +kernel

/-- The getters called before the position of `frames` of an `Initial` packet is known. -/
example := C126_running_partial tokenise Source.srcQuicInitial (fun _ => 0) 14 readLength
  (crate_names (e := ("quic::Initial", Source.srcQuicInitial, initial)) (by simp [crateSources])).1
  (crate_names (e := ("quic::Initial", Source.srcQuicInitial, initial)) (by simp [crateSources])).2
  (fun f hf => lengthCheck_is (List.all_eq_true.mp (List.all_eq_true.mp crate_lengths
    ("quic::Initial", Source.srcQuicInitial, initial) (by simp [crateSources])) f (List.mem_of_mem_take hf)))
  (callsOf ("quic::Initial", Source.srcQuicInitial, initial)) .debug initial

/-- 511 getters are called for the position of the payload after nine pairs. -/
example : positionCalls nineCalls nineFields readLength 18 = 511 ∧ nineCalls "i" = 255 := by
  obtain ⟨h1, h2⟩ := C126_pairs ninePairs [Source.field "payload" [Source.payload] "Vec < u8 >"]
    (nineDecl.fields.map (·.ty)) readLength nineCalls (by decide)
    (fun i hi => ⟨u 8, match i, hi with
      | 0, _ | 1, _ | 2, _ | 3, _ | 4, _ | 5, _ | 6, _ | 7, _ | 8, _ => rfl
      | n + 9, hi => absurd hi (by simp [ninePairs])⟩)
    (by decide +kernel) (callsCheck_is (by decide +kernel))
  exact ⟨h1 9 (by decide), h2 8 ("i", "iv") rfl⟩

/-- The two lengths of the first pair. -/
example := C126_pairs_length tokenise nineFields "a" "av" (by rfl) (by decide)

end Verif.Props
