import Verif.Proofs.JoinedFrames
import Verif.Props.QuicFrameFields
import Verif.Props.QuicRewrite

/-!
# C129: the frames of joined payloads

`extended`, `ReachesEnd`, `joined`, `merged` and `FieldsKept` are in `Spec/JoinedFrames`.
-/

set_option autoImplicit false

namespace Verif.Props
open Spec Spec.Quic

/-- A reported frame with its bytes. -/
theorem reported_frame {m : Mode} {a : Buf} {fs : List Frame} (hsl : SliceLen a.length)
    (h : Frame.new m a = .ok (some fs)) (f : Frame) (hf : f ∈ fs) :
    ∃ (ty : UInt8) (body rest : Buf) (fields : List (String × Val)), f.buf = ty :: (body ++ rest) ∧
      Fields 1 ty.toNat body fields ∧ variants.lookup ty.toNat = some f.kind ∧ (openEnded ty.toNat → rest = []) ∧
      (ty :: (body ++ rest)).length ≤ a.length := by
  obtain ⟨raw, hraw, hfs⟩ := frames_of_new hsl h
  have hmem := List.mem_map_of_mem (f := shown) hf
  rw [hfs] at hmem
  obtain ⟨⟨x, n⟩, hx, hxe⟩ := List.mem_map.mp hmem
  have hxr : x ∈ raw := (runs_sublist raw).subset (List.mem_map_of_mem (f := (·.1)) hx)
  obtain ⟨parts, body, rest, h1, h2, h3, h4, h5⟩ := frames_mem hraw x hxr
  obtain ⟨fields, hfields⟩ := has_fields h2 h3
  simp only [shown, expected, Prod.mk.injEq] at hxe
  obtain ⟨e1, e2, -⟩ := hxe
  exact ⟨x.1, body, rest, fields, by rw [← e2, h1], hfields, e1, fun ho => h4 (toEnd_of_open h2 ho), by rw [← h1]; exact h5⟩

theorem stream_data_bytes {r t : Nat} {body : Buf} {fields : List (String × Val)} (h : Fields r t body fields) {v : Val}
    (hv : ("stream_data", v) ∈ fields) : ∃ data, v = bytesOf data := by
  cases h <;> simp at hv <;> exact ⟨_, hv⟩

theorem fields_open {r t : Nat} {body : Buf} {fields : List (String × Val)} (h : Fields r t body fields)
    (ho : openEnded t) (b : Buf) : ∃ data fields', ("stream_data", bytesOf data) ∈ fields ∧
      Fields r t (body ++ b) fields' ∧ ("stream_data", bytesOf (data ++ b)) ∈ fields' := by
  cases h with
  | @stream _ id data _ ht h1 =>
    have hf := Fields.stream (r := r) (data := data ++ b) ht h1
    rw [← List.append_assoc] at hf
    exact ⟨data, _, by simp, hf, by simp⟩
  | @streamOff _ id off data _ _ ht h1 h2 =>
    have hf := Fields.streamOff (r := r) (data := data ++ b) ht h1 h2
    rw [← List.append_assoc] at hf
    exact ⟨data, _, by simp, hf, by simp⟩
  | streamLen ht => rcases ht with rfl | rfl <;> simp [openEnded] at ho
  | streamOffLen ht => rcases ht with rfl | rfl <;> simp [openEnded] at ho
  | maxStreams ht => rcases ht with rfl | rfl <;> simp [openEnded] at ho
  | streamsBlocked ht => rcases ht with rfl | rfl <;> simp [openEnded] at ho
  | path ht => rcases ht with rfl | rfl <;> simp [openEnded] at ho
  | _ => simp [openEnded] at ho

/-- A frame that does not reach the end reads the same with other bytes behind it. -/
theorem fields_kept (m : Mode) {a : Buf} (b : Buf) {fs : List Frame} (hsl : SliceLen (a ++ b).length)
    (h : Frame.new m a = .ok (some fs)) (f : Frame) (hf : f ∈ fs) (hc : ¬ ReachesEnd f) :
    FieldsKept m f (extended b f) := by
  have hsla : SliceLen a.length := by unfold SliceLen at *; rw [List.length_append] at hsl; omega
  obtain ⟨ty, body, rest, fields, h1, hfields, e1, h4, h5⟩ := reported_frame hsla h f hf
  obtain ⟨k, bu, c⟩ := f
  change bu = _ at h1
  subst h1
  have hno : ¬ openEnded ty.toNat := fun ho => hc ⟨ty, rfl, ho⟩
  have hl : (ty :: (body ++ (rest ++ b))).length ≤ (a ++ b).length := by
    simp only [List.length_cons, List.length_append] at h5 ⊢; omega
  obtain ⟨s1, s2, s3, s4, s5, s6⟩ := C64_frame_accessors m ty body rest fields hfields (fun ho => (hno ho).elim) k e1 c
    (by unfold SliceLen at *; omega)
  obtain ⟨t1, t2, t3, t4, t5, t6⟩ := C64_frame_accessors m ty body (rest ++ b) fields hfields (fun ho => (hno ho).elim) k e1
    c (by unfold SliceLen at *; omega)
  have he : extended b ⟨k, ty :: (body ++ rest), c⟩ = ⟨k, ty :: (body ++ (rest ++ b)), c⟩ := by
    simp only [extended, List.cons_append, List.append_assoc]
  rw [he]
  refine ⟨rfl, by rw [s1, t1], ?_, ?_⟩
  · by_cases hd : ∃ data, ("stream_data", bytesOf data) ∈ fields
    · obtain ⟨data, hd⟩ := hd
      rw [s5 data hd, t5 data hd]
    · have hd' : ∀ v, ("stream_data", v) ∉ fields := fun v hv => by
        obtain ⟨data, rfl⟩ := stream_data_bytes hfields hv
        exact hd ⟨data, hv⟩
      rw [s6 hd', t6 hd']
  · intro i hi
    have hlen := congrArg List.length s3
    have hi' : i < (Val.nums [ty.toNat] :: fields.map (·.2)).length := by
      simp only [List.length_map, List.length_append, List.length_cons, List.length_nil] at hlen hi ⊢
      omega
    have g := List.getElem?_eq_getElem hi'
    rw [s4 i _ (by rw [List.getElem?_append_left hi']; exact g), t4 i _ (by rw [List.getElem?_append_left hi']; exact g)]

/-- **C129** If no frame of `a` reaches the end, the frames of `a ++ b` are those of `a` followed by what is
found in `b`; they keep their fields. -/
theorem C129_joined (m : Mode) (a b : Buf) (fs : List Frame) (hsl : SliceLen (a ++ b).length)
    (h : Frame.new m a = .ok (some fs)) (hc : ∀ f ∈ fs, ¬ ReachesEnd f) :
    Frame.new m (a ++ b) = joined (fs.map (extended b)) (Frame.new m b) ∧
      ∀ f ∈ fs, FieldsKept m f (extended b f) := by
  refine ⟨?_, fun f hf => fields_kept m b hsl h f hf (hc f hf)⟩
  have hsla : SliceLen a.length := by unfold SliceLen at *; rw [List.length_append] at hsl; omega
  obtain ⟨raw, h1, rfl⟩ := frames_pushAll hsla h
  exact new_join m hsl h1 fun x hx ho => by
    obtain ⟨f, hf, hr⟩ := (reaches_iff h1).mpr ⟨x, hx, ho⟩
    exact hc f hf hr

/-- A PING frame and padding, before padding and a PING frame: the padding is one frame of length 3. -/
example : Frame.new .release ([1, 0] ++ [0, 0, 1]) =
    .ok (some [⟨.ping, [1, 0, 0, 0, 1], 0⟩, ⟨.padding, [0, 0, 0, 1], 3⟩, ⟨.ping, [1], 0⟩]) := by
  rw [(C129_joined .release [1, 0] [0, 0, 1] [⟨.ping, [1, 0], 0⟩, ⟨.padding, [0], 1⟩] (by unfold SliceLen; decide)
    (by decide +kernel) (by
      intro f hf
      rcases List.mem_cons.mp hf with rfl | hf
      · rintro ⟨ty, h, ho⟩; cases h; exact absurd ho (by unfold openEnded; decide)
      · rw [List.mem_singleton.mp hf]
        rintro ⟨ty, h, ho⟩; cases h; exact absurd ho (by unfold openEnded; decide))).1]
  decide +kernel

/-- **C129** If a frame of `a` reaches the end, `b` becomes part of it: the same frames are found, and the
data of this one end with `b`. -/
theorem C129_open (m : Mode) (a b : Buf) (fs : List Frame) (hsl : SliceLen (a ++ b).length)
    (h : Frame.new m a = .ok (some fs)) (ho : ∃ f ∈ fs, ReachesEnd f) :
    Frame.new m (a ++ b) = .ok (some (fs.map (extended b))) ∧
      ∀ f ∈ fs, (¬ ReachesEnd f → FieldsKept m f (extended b f)) ∧
        (ReachesEnd f → ∃ data, f.payload m = .ok data ∧ (extended b f).payload m = .ok (data ++ b)) := by
  have hsla : SliceLen a.length := by unfold SliceLen at *; rw [List.length_append] at hsl; omega
  obtain ⟨raw, h1, hfs⟩ := frames_pushAll hsla h
  have hnew : Frame.new m (a ++ b) = .ok (some (fs.map (extended b))) := by
    subst hfs
    rw [new_pushAll m hsl (frames_open b h1 ((reaches_iff h1).mp ho)), ← pushAll_ext]
    rfl
  refine ⟨hnew, fun f hf => ⟨fields_kept m b hsl h f hf, ?_⟩⟩
  rintro ⟨ty', ht, hto⟩
  obtain ⟨ty, body, rest, fields, e1, e2, e3, e4, e5⟩ := reported_frame hsla h f hf
  rw [e1] at ht
  have hty : ty = ty' := Option.some.inj ht
  subst hty
  have hrest := e4 hto
  subst hrest
  obtain ⟨data, fields', d1, d2, d3⟩ := fields_open e2 hto b
  obtain ⟨k, bu, c⟩ := f
  change bu = _ at e1
  subst e1
  rw [List.append_nil] at e5
  refine ⟨data, (C64_frame_accessors m ty body [] fields e2 (fun _ => rfl) k e3 c
    (by rw [List.append_nil]; unfold SliceLen at *; omega)).2.2.2.2.1 data d1, ?_⟩
  have he : extended b ⟨k, ty :: (body ++ []), c⟩ = ⟨k, ty :: ((body ++ b) ++ []), c⟩ := by
    simp only [extended, List.cons_append, List.append_nil]
  rw [he]
  exact (C64_frame_accessors m ty (body ++ b) [] fields' d2 (fun _ => rfl) k e3 c
    (by simp only [List.length_cons, List.length_append, List.length_nil] at e5 hsl ⊢; unfold SliceLen at *; omega)).2.2.2.2.1 _ d3

/-- A STREAM frame without length takes the bytes of a PING frame as data. -/
example := C129_open .debug [1, 8, 4, 0xAA] [1] [⟨.ping, [1, 8, 4, 0xAA], 0⟩, ⟨.stream, [8, 4, 0xAA], 0⟩]
  (by unfold SliceLen; decide) (by decide +kernel) ⟨⟨.stream, [8, 4, 0xAA], 0⟩, by simp, 8, rfl, .inl rfl⟩

/-- **C129** The bytes before a reported frame are a payload of their own, with the frames before it, none of
which reaches the end; the bytes from it on are one with this frame and those behind it. -/
theorem C129_split (m : Mode) (front r : Buf) (pre fs : List Frame) (f : Frame) (hsl : SliceLen (front ++ r).length)
    (h : Frame.new m (front ++ r) = .ok (some (pre ++ f :: fs))) (hf : f.buf = r) :
    ∃ gs, Frame.new m front = .ok (some gs) ∧ (∀ g ∈ gs, ¬ ReachesEnd g) ∧ pre = gs.map (extended r) ∧
      Frame.new m r = .ok (some (f :: fs)) := by
  have hslf : SliceLen front.length := by unfold SliceLen at *; rw [List.length_append] at hsl; omega
  have hslr : SliceLen r.length := by unfold SliceLen at *; rw [List.length_append] at hsl; omega
  obtain ⟨raw, h1, h2⟩ := frames_pushAll hsl h
  obtain ⟨x, hx, hxr⟩ := pushAll_from h1 f (h2 ▸ by simp)
  obtain ⟨ra, rb, rfl, h4, h5, h6⟩ := frames_split h1 rfl ⟨x, hx, hxr.trans hf⟩
  have hgs : ∀ g ∈ pushAll [] ra, ¬ ReachesEnd g := fun g hg hr => by
    obtain ⟨y, hy, ho⟩ := (reaches_iff h4).mp ⟨g, hg, hr⟩
    exact h6 y hy ho
  have hne : r ≠ [] := by
    obtain ⟨_, _, _, e, -⟩ := frames_mem h1 x hx
    rw [← hf, ← hxr, e]; simp
  have hj := new_join m hsl h4 h6
  rw [h, new_pushAll m hslr h5] at hj
  have hj := Option.some.inj (Except.ok.inj hj)
  obtain ⟨y, t, hy, hyr, ht⟩ := pushAll_bufs h5 hne
  have hlong : ∀ g ∈ (pushAll [] ra).map (extended r), g.buf ≠ r := by
    intro g hg
    obtain ⟨g', hg', rfl⟩ := List.mem_map.mp hg
    intro he
    obtain ⟨z, hz, hzb⟩ := pushAll_from h4 g' hg'
    obtain ⟨_, _, _, e, -⟩ := frames_mem h4 z hz
    have := congrArg List.length he
    simp only [extended, List.length_append, ← hzb, e, List.length_cons] at this
    omega
  rw [hy] at hj
  unfold merged at hj
  have done : pre ++ f :: fs = (pushAll [] ra).map (extended r) ++ y :: t →
      ∃ gs, Frame.new m front = .ok (some gs) ∧ (∀ g ∈ gs, ¬ ReachesEnd g) ∧ pre = gs.map (extended r) ∧
        Frame.new m r = .ok (some (f :: fs)) := by
    intro he
    obtain ⟨e1, e2⟩ := frames_split_at (P := fun g => g.buf = r) he hf (fun g hg => hlong g hg) (fun g hg => ht g hg)
    exact ⟨pushAll [] ra, new_pushAll m hslf h4, hgs, e1, by rw [new_pushAll m hslr h5, hy, e2]⟩
  split at hj
  · rename_i l g gs' hl heq
    cases heq
    split at hj
    · exfalso
      have hmem : f ∈ ((pushAll [] ra).map (extended r)).dropLast ++ ⟨l.kind, l.buf, l.count + y.count⟩ :: t := hj ▸ by simp
      rcases List.mem_append.mp hmem with hm | hm
      · exact hlong f ((List.dropLast_sublist _).subset hm) hf
      · rcases List.mem_cons.mp hm with hm | hm
        · exact hlong l (List.mem_of_getLast? hl) (by rw [hm] at hf; exact hf)
        · exact ht f hm hf
    · exact done hj
  · exact done hj

/-- The padding before a PING frame. -/
example := C129_split .debug [0, 0] [1, 0] [⟨.padding, [0, 0, 1, 0], 2⟩] [⟨.padding, [0], 1⟩] ⟨.ping, [1, 0], 0⟩
  (by unfold SliceLen; decide) (by decide +kernel) rfl

/-- **C129** After a field of bytes of any reported frame was set, the same frames are found: those before it
keep their fields, those behind it are the same bytes. -/
theorem C129_rewrite (m : Mode) (front r r' : Buf) (pre fs : List Frame) (x : Frame) (k : Nat) (f : Field) (old bs : Buf)
    (hsl : SliceLen (front ++ r).length) (h : Frame.new m (front ++ r) = .ok (some (pre ++ x :: fs))) (hx : x.buf = r)
    (hf : x.kind.decl.fields[k]? = some f) (hsome : f.len.isSome = true) (hname : f.name ∈ byteFields)
    (hg : x.kind.decl.get m r k = .ok (bytesOf old)) (hset : x.kind.decl.set m r k (bytesOf bs) = .ok r') :
    ∃ gs : List Frame, pre = gs.map (extended r) ∧
      Frame.new m (front ++ r') = .ok (some (gs.map (extended r') ++ ⟨x.kind, r', 0⟩ :: fs)) ∧
      ∀ g ∈ gs, FieldsKept m (extended r g) (extended r' g) := by
  obtain ⟨gs, h1, h2, h3, h4⟩ := C129_split m front r pre fs x hsl h hx
  have hslr : SliceLen r.length := by unfold SliceLen at *; rw [List.length_append] at hsl; omega
  have hnew := C106_frames m r r' x fs k f old bs hslr h4 hf hsome hname hg hset
  have hlen : r'.length = r.length := by
    obtain ⟨_, _, -, -, h, -⟩ := C20_quic _ (.inr ⟨x.kind, rfl⟩) m r r' k f _ hslr hf hsome hset
    exact h
  have hsl' : SliceLen (front ++ r').length := by
    rw [List.length_append] at hsl ⊢
    rw [hlen]; exact hsl
  obtain ⟨j1, j2⟩ := C129_joined m front r gs hsl h1 h2
  obtain ⟨j1', j2'⟩ := C129_joined m front r' gs hsl' h1 h2
  refine ⟨gs, h3, ?_, fun g hg => ?_⟩
  · rw [j1', hnew]
    have hpad : x.kind ≠ .padding := by
      intro hp
      have hlt := (List.getElem?_eq_some_iff.mp hf).1
      rw [hp] at hf hlt
      rcases k with _ | _ | k
      · cases hf; cases hsome
      · cases hf; exact absurd hname (by decide)
      · exact absurd hlt (by simp [FrameKind.decl, frameBare])
    unfold joined merged
    simp only
    split
    · rename_i heq
      cases heq
      rw [if_neg (fun hp => hpad hp.2)]
    · rfl
  · obtain ⟨a1, a2, a3, a4⟩ := j2 g hg
    obtain ⟨b1, b2, b3, b4⟩ := j2' g hg
    exact ⟨rfl, by rw [a2, b2], by rw [a3, b3], fun i hi => by rw [a4 i hi, b4 i hi]⟩

/-- The data of a CRYPTO frame behind padding are set. -/
example := C129_rewrite .release [0, 0] [6, 0x40, 5, 1, 7, 1] [6, 0x40, 5, 1, 9, 1]
  [⟨.padding, [0, 0, 6, 0x40, 5, 1, 7, 1], 2⟩] [⟨.ping, [1], 0⟩] ⟨.crypto, [6, 0x40, 5, 1, 7, 1], 0⟩ 3
  (fbytes "crypto_payload" (lenVarint 2)) [7] [9] (by unfold SliceLen; decide) (by decide +kernel) rfl rfl rfl (by decide)
  (by decide +kernel) (by decide +kernel)

end Verif.Props
