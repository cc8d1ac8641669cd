import Verif.Proof.OwnedStep

namespace Verif.Owned
open Verif.Czi Verif.Spec.Owned

/-! ## What a call delivers -/

theorem allocAll_ptr (ok : Nat → Bool) (ps : List Part) (h : Heap) (k : Nat) :
    ∀ q ∈ (allocAll ok h k ps).2.zip ps, (q.1.isSome = true → 0 < q.2.n) ∧ ((∀ j, ok j = true) → 0 < q.2.n → q.1.isSome = true) := by
  induction ps generalizing h k with
  | nil => simp [allocAll]
  | cons p ps ih =>
    unfold allocAll
    split
    · rename_i hp
      dsimp only
      intro q hq
      rw [List.zip_cons_cons] at hq
      rcases List.mem_cons.mp hq with e | hq
      · subst e
        exact ⟨fun _ => hp.1, fun _ _ => rfl⟩
      · exact ih _ _ q hq
    · rename_i hp
      dsimp only
      intro q hq
      rw [List.zip_cons_cons] at hq
      rcases List.mem_cons.mp hq with e | hq
      · subst e
        exact ⟨fun h => by simp at h, fun ha h => absurd ⟨h, ha k⟩ hp⟩
      · exact ih _ _ q hq

theorem fillAll_keeps (s : Stream) (l : List (Option Nat × Part)) (h : Heap) {i : Nat} (hi : ∀ p, (some i, p) ∉ l) : (fillAll s h l).1.mem[i]? = h.mem[i]? := by
  induction l generalizing h with
  | nil => rfl
  | cons q l ih =>
    obtain ⟨q, p⟩ := q
    have hl : ∀ p, (some i, p) ∉ l := fun p hp => hi p (List.mem_cons_of_mem _ hp)
    cases q with
    | none => exact ih h hl
    | some j =>
      have hj : j ≠ i := by
        intro e
        subst e
        exact hi p (List.mem_cons_self ..)
      have h1 : (h.mem.set j (some (s p.off p.n.toNat)))[i]? = h.mem[i]? := by
        rw [List.getElem?_set, if_neg hj]
      unfold fillAll
      dsimp only
      split
      · exact h1
      · exact (ih _ hl).trans h1

theorem fillAll_result (s : Stream) (l : List (Option Nat × Part)) (h : Heap) (hn : ((l.map Prod.fst).filterMap id).Nodup) (hlt : ∀ i p, (some i, p) ∈ l → i < h.mem.length)
    (hr : (fillAll s h l).2 = true) :
    ∀ i p, (some i, p) ∈ l → (fillAll s h l).1.mem[i]? = some (some (s p.off p.n.toNat)) ∧ i32 (s p.off p.n.toNat).length = p.n := by
  induction l generalizing h with
  | nil => simp
  | cons q l ih =>
    obtain ⟨q, p⟩ := q
    cases q with
    | none =>
      intro i p' hm
      rcases List.mem_cons.mp hm with e | hm
      · simp at e
      · exact ih h (by simpa using hn) (fun i p hp => hlt i p (List.mem_cons_of_mem _ hp)) hr i p' hm
    | some j =>
      have hn' : j ∉ (l.map Prod.fst).filterMap id ∧ ((l.map Prod.fst).filterMap id).Nodup := by simpa using hn
      have hjl := hlt j p (List.mem_cons_self ..)
      unfold fillAll at hr ⊢
      dsimp only at hr ⊢
      by_cases hb : i32 (s p.off p.n.toNat).length = p.n
      · rw [if_neg (by simpa using hb)] at hr ⊢
        intro i p' hm
        rcases List.mem_cons.mp hm with e | hm
        · injection e with e1 e2
          injection e1 with e1
          subst e1 e2
          refine ⟨?_, hb⟩
          rw [fillAll_keeps]
          · simp [hjl]
          · intro p'' hp''
            exact hn'.1 (by simp only [List.mem_filterMap, List.mem_map, id]; exact ⟨some i, ⟨(some i, p''), hp'', rfl⟩, rfl⟩)
        · exact ih _ hn'.2 (fun i p hp => by simpa using hlt i p (List.mem_cons_of_mem _ hp)) hr i p' hm
      · rw [if_pos (by simpa using hb)] at hr
        simp at hr

theorem fillAll_true (s : Stream) (l : List (Option Nat × Part)) (h : Heap) (hp : ∀ i p, (some i, p) ∈ l → i32 (s p.off p.n.toNat).length = p.n) : (fillAll s h l).2 = true := by
  induction l generalizing h with
  | nil => rfl
  | cons q l ih =>
    obtain ⟨q, p⟩ := q
    have hl := fun i p hm => hp i p (List.mem_cons_of_mem _ hm)
    cases q with
    | none => exact ih h hl
    | some j =>
      unfold fillAll
      dsimp only
      rw [if_neg (by simpa using hp j p (List.mem_cons_self ..))]
      exact ih _ hl

/-- the parts that were delivered -/
def Delivered (s : Stream) (h : Heap) (q : Option Nat × Part) : Prop :=
  (∀ i, q.1 = some i → 0 < q.2.n ∧ h.mem[i]? = some (some (s q.2.off q.2.n.toNat)) ∧ i32 (s q.2.off q.2.n.toNat).length = q.2.n)

theorem readParts_delivered {ok : Nat → Bool} {s : Stream} {h h' : Heap} {ps : List Part} {ptrs : List (Option Nat)} (hr : readParts ok s h ps = (h', some ptrs)) :
    (∀ q ∈ ptrs.zip ps, Delivered s h' q) ∧ ((∀ j, ok j = true) → ∀ q ∈ ptrs.zip ps, 0 < q.2.n → ∃ i, q.1 = some i) := by
  obtain ⟨n, hl⟩ := allocAll_spec ok ps h 0
  have hp := allocAll_ptr ok ps h 0
  unfold readParts at hr
  dsimp only at hr
  split at hr
  · rename_i h2 hf
    simp only [Prod.mk.injEq, Option.some.injEq] at hr
    obtain ⟨e1, e2⟩ := hr
    subst e1 e2
    have hmap : ((allocAll ok h 0 ps).2.zip ps).map Prod.fst = (allocAll ok h 0 ps).2 := List.map_fst_zip (by omega)
    have hres := fillAll_result s ((allocAll ok h 0 ps).2.zip ps) (allocAll ok h 0 ps).1 (by rw [hmap]; exact n.nodup) (fun i p hm => by
      have := (List.of_mem_zip hm).1
      exact ((n.alive i (n.new i this)).mpr this).lt) (by rw [hf])
    rw [hf] at hres
    refine ⟨?_, ?_⟩
    · rintro ⟨q, p⟩ hq i hi
      dsimp only at hi
      subst hi
      exact ⟨(hp _ hq).1 rfl, hres i p hq⟩
    · intro ho q hq hpos
      exact Option.isSome_iff_exists.mp ((hp q hq).2 ho hpos)
  · simp at hr

theorem readParts_ok {ok : Nat → Bool} {s : Stream} {h : Heap} {ps : List Part} (hp : ∀ p ∈ ps, 0 < p.n → i32 (s p.off p.n.toNat).length = p.n) :
    ∃ h' ptrs, readParts ok s h ps = (h', some ptrs) := by
  have ha := allocAll_ptr ok ps h 0
  have hf := fillAll_true s ((allocAll ok h 0 ps).2.zip ps) (allocAll ok h 0 ps).1 (fun i p hm => hp p (List.of_mem_zip hm).2 ((ha _ hm).1 rfl))
  unfold readParts
  dsimp only
  rcases hx : fillAll s (allocAll ok h 0 ps).1 ((allocAll ok h 0 ps).2.zip ps) with ⟨h', r⟩
  rw [hx] at hf
  dsimp only at hf
  subst hf
  exact ⟨h', _, rfl⟩

theorem memberOrder_map {α β : Type} (kind : Kind) (f : α → β) (l : List α) : (memberOrder kind l).map f = memberOrder kind (l.map f) := by
  unfold memberOrder
  split
  · rfl
  · rfl
  · rename_i h1 h2
    split
    · rename_i a b c he
      exfalso
      match l, he with
      | [x, y, z], _ => exact h1 x y z rfl rfl
    · rename_i a b c he
      exfalso
      match l, he with
      | [x, y, z], _ => exact h2 x y z rfl rfl
    · rfl

theorem control_true {fail : Option Nat} {h h2 : Heap} (qs : List (Option Nat)) {k : Nat} {bs : List (Option Nat)} (hc : control fail h k bs qs = (h2, true)) : h2 = h := by
  induction qs generalizing k bs with
  | nil =>
    simp only [control, Prod.mk.injEq, and_true] at hc
    exact hc.symm
  | cons p qs ih =>
    unfold control at hc
    split at hc
    · simp at hc
    · exact ih hc

theorem makeShared_true {fail : Option Nat} {first : Nat} {h h2 : Heap} {qs : List (Option Nat)} (he : makeShared fail first h qs = (h2, true)) : h2 = h := by
  unfold makeShared at he
  split at he
  · simp at he
  · exact control_true qs he

/-- what a call that succeeds delivers -/
theorem readObject_some {kind : Kind} {s : Stream} {pos : Nat} {ok : Nat → Bool} {accepted : Bool} {fail : Option Nat} {h h' : Heap} {r : List (Option Nat × Nat)}
    (hr : readObject kind s pos ok accepted fail h = (h', some r)) :
    ∃ ps ptrs, layout kind s pos = some ps ∧ readParts ok s h ps = (h', some ptrs) ∧
      r = (memberOrder kind (ptrs.zip ps)).map (fun m => (m.1, m.2.size)) := by
  unfold readObject at hr
  split at hr
  · simp at hr
  · rename_i ps hps
    refine ⟨ps, ?_⟩
    split at hr
    · simp at hr
    · rename_i h1 ptrs hrp
      refine ⟨ptrs, hps, ?_⟩
      dsimp only at hr
      split at hr
      · split at hr
        · split at hr
          · rename_i h2 he
            simp only [Prod.mk.injEq, Option.some.injEq] at hr
            obtain ⟨e1, e2⟩ := hr
            subst e1
            rw [makeShared_true he]
            exact ⟨hrp, e2.symm⟩
          · simp at hr
        · simp at hr
      · split at hr
        · rename_i h2 he
          simp only [Prod.mk.injEq, Option.some.injEq] at hr
          obtain ⟨e1, e2⟩ := hr
          subst e1
          rw [makeShared_true he]
          exact ⟨hrp, e2.symm⟩
        · simp at hr

theorem readObject_ok {kind : Kind} {s : Stream} {pos : Nat} {ok : Nat → Bool} {ps : List Part} (h : Heap) (hl : layout kind s pos = some ps)
    (hp : ∀ p ∈ ps, 0 < p.n → i32 (s p.off p.n.toNat).length = p.n) :
    ∃ h' r, readObject kind s pos ok true none h = (h', some r) := by
  obtain ⟨h1, ptrs, hr⟩ := readParts_ok (ok := ok) (h := h) hp
  unfold readObject
  simp only [hl, hr]
  have hm : ∀ first qs, makeShared none first h1 qs = (h1, true) := fun first qs => control_eq none qs h1 _ [] (fun _ _ => by simp)
  split
  · rw [if_pos trivial, hm]
    exact ⟨h1, _, rfl⟩
  · rw [hm]
    exact ⟨h1, _, rfl⟩

theorem readObject_throws {kind : Kind} {s : Stream} {pos : Nat} {ok : Nat → Bool} {accepted : Bool} {fail : Option Nat} {h : Heap} {ps : List Part} (hl : layout kind s pos = some ps)
    (ho : ∀ j, ok j = true) {p : Part} (hm : p ∈ ps) (hn : 0 < p.n) (hp : i32 (s p.off p.n.toNat).length ≠ p.n) :
    (readObject kind s pos ok accepted fail h).2 = none := by
  rcases hr : readObject kind s pos ok accepted fail h with ⟨h', r⟩
  cases r with
  | none => rfl
  | some r =>
    exfalso
    obtain ⟨ps', ptrs, h1, h2, _⟩ := readObject_some hr
    rw [hl] at h1
    injection h1 with h1
    subst h1
    obtain ⟨d1, d2⟩ := readParts_delivered h2
    have hlen : ptrs.length = ps.length := by
      have := readParts_spec ok s h ps
      rw [h2] at this
      exact this.2
    obtain ⟨j, hj⟩ := List.mem_iff_getElem?.mp hm
    have hjl := (List.getElem?_eq_some_iff.mp hj).1
    have hz : (ptrs[j]'(by omega), p) ∈ ptrs.zip ps := by
      refine List.mem_iff_getElem?.mpr ⟨j, ?_⟩
      rw [List.getElem?_zip_eq_some]
      exact ⟨List.getElem?_eq_getElem _, hj⟩
    obtain ⟨i, hi⟩ := d2 ho _ hz hn
    exact hp (d1 _ hz i hi).2.2

/-! ## The world after a call that succeeds -/

/-- What `GetRawData` gives for a part of a segment: the size as the object keeps it; a pointer to the bytes of the stream, or the null pointer if the size is not positive. -/
def Shows (w : World) (v k : Nat) (s : Stream) (p : Part) : Prop :=
  ∃ ptr, w.rawData v k = some (ptr, p.size) ∧
    ((0 < p.n ∧ i32 (s p.off p.n.toNat).length = p.n ∧ ∃ i, ptr = some i ∧ Contents w i (s p.off p.n.toNat)) ∨ (p.n ≤ 0 ∧ ptr = none))

theorem step_shows {kind : Kind} {s : Stream} {pos : Nat} {ps : List Part} (w : World) (hl : layout kind s pos = some ps)
    (hp : ∀ p ∈ ps, 0 < p.n → i32 (s p.off p.n.toNat).length = p.n) :
    (w.step (.read kind s pos (fun _ => true) true none)).vars = w.vars ++ [some (.obj w.objs.length)] ∧
    (w.step (.read kind s pos (fun _ => true) true none)).objs.length = w.objs.length + 1 ∧
    ∀ k p, (memberOrder kind ps)[k]? = some p → Shows (w.step (.read kind s pos (fun _ => true) true none)) w.vars.length k s p := by
  obtain ⟨h', r, hr⟩ := readObject_ok (ok := fun _ => true) w.heap hl hp
  obtain ⟨ps', ptrs, h1, h2, h3⟩ := readObject_some hr
  rw [hl] at h1
  injection h1 with h1
  subst h1
  obtain ⟨d1, d2⟩ := readParts_delivered h2
  have hlen : ptrs.length = ps.length := by
    have := readParts_spec (fun _ => true) s w.heap ps
    rw [h2] at this
    exact this.2
  have hsnd : (memberOrder kind (ptrs.zip ps)).map Prod.snd = memberOrder kind ps := by
    rw [memberOrder_map, List.map_snd_zip (by omega)]
  have hstep : w.step (.read kind s pos (fun _ => true) true none) =
      { heap := h', objs := w.objs ++ [⟨r.map (fun p => ⟨p.1, p.2, 1⟩), 1⟩], vars := w.vars ++ [some (.obj w.objs.length)] } := by
    unfold World.step
    simp only [hr]
  rw [hstep]
  refine ⟨rfl, by simp, ?_⟩
  intro k p hk
  rw [← hsnd, List.getElem?_map] at hk
  rcases hq : (memberOrder kind (ptrs.zip ps))[k]? with _ | q
  · rw [hq] at hk
    cases hk
  · rw [hq] at hk
    simp only [Option.map_some, Option.some.injEq] at hk
    subst hk
    have hqm : q ∈ ptrs.zip ps := (memberOrder_perm kind _).mem_iff.mp (List.mem_of_getElem? hq)
    have hpiece : (⟨h', w.objs ++ [⟨r.map (fun p => ⟨p.1, p.2, 1⟩), 1⟩], w.vars ++ [some (Ref.obj w.objs.length)]⟩ : World).piece w.objs.length k = some ⟨q.1, q.2.size, 1⟩ := by
      rw [piece_append, if_pos rfl]
      dsimp only
      rw [h3]
      simp [hq]
    refine ⟨q.1, ?_, ?_⟩
    · unfold World.rawData
      simp only [List.getElem?_append_right (Nat.le_refl _), Nat.sub_self, List.getElem?_cons_zero, hpiece, Option.map_some]
    · by_cases hn : 0 < q.2.n
      · obtain ⟨i, hi⟩ := d2 (fun _ => rfl) q hqm hn
        exact .inl ⟨hn, (d1 q hqm i hi).2.2, i, hi, (d1 q hqm i hi).2.1⟩
      · refine .inr ⟨by omega, ?_⟩
        rcases hx : q.1 with _ | i
        · rfl
        · exact absurd (d1 q hqm i hx).1 hn

/-! ## Releasing blocks twice -/

theorem free_broken (h : Heap) (p : Option Nat) (hb : h.broken = true) : (h.free p).broken = true := by
  cases p with
  | none => exact hb
  | some i =>
    unfold Heap.free
    dsimp only
    split
    · exact hb
    · rfl

theorem freeAll_broken (l : List (Option Nat)) (h : Heap) (hb : h.broken = true) : (h.freeAll l).broken = true := by
  induction l generalizing h with
  | nil => exact hb
  | cons p l ih => exact ih _ (free_broken h p hb)

theorem freeAll_alive (l : List (Option Nat)) (h : Heap) {i : Nat} (ha : (h.freeAll l).Alive i) : h.Alive i := by
  induction l generalizing h with
  | nil => exact ha
  | cons p l ih => exact (free_shrinks h p).2 i (ih _ ha)

theorem free_dead (h : Heap) (i : Nat) : ¬ (h.free (some i)).Alive i := by
  unfold Heap.free
  dsimp only
  split
  · rename_i b hb
    have := (List.getElem?_eq_some_iff.mp hb).1
    rintro ⟨c, hc⟩
    simp [List.getElem?_set, this] at hc
  · rename_i hn
    rintro ⟨c, hc⟩
    exact hn c hc

theorem freeAll_dead (l : List (Option Nat)) (h : Heap) {i : Nat} (hm : some i ∈ l) : ¬ (h.freeAll l).Alive i := by
  induction l generalizing h with
  | nil => simp at hm
  | cons p l ih =>
    rcases List.mem_cons.mp hm with e | hm
    · subst e
      exact fun ha => free_dead h i (freeAll_alive l _ ha)
    · exact ih _ hm

theorem freeAll_twice (l : List (Option Nat)) (h : Heap) {i : Nat} (hm : some i ∈ l) (hd : ¬ h.Alive i) : (h.freeAll l).broken = true := by
  induction l generalizing h with
  | nil => simp at hm
  | cons p l ih =>
    rcases List.mem_cons.mp hm with e | hm
    · subst e
      refine freeAll_broken l _ ?_
      unfold Heap.free
      dsimp only
      split
      · rename_i b hb
        exact absurd ⟨b, hb⟩ hd
      · rfl
    · exact ih _ hm (fun ha => hd ((free_shrinks h p).2 i ha))

/-! ## The parts and the payloads of Parse.lean -/

theorem readPayload_ok {s : Stream} {off : Nat} {n : Int} {p : Payload} (h : readPayload (fun _ => true) s off n = .ok p) :
    p.size = n ∧ (0 < n → i32 (s off n.toNat).length = n ∧ p.bytes = some (s off n.toNat)) ∧ (n ≤ 0 → p.bytes = none) := by
  unfold readPayload at h
  split at h
  · rename_i hn
    dsimp only at h
    split at h
    · cases h
    · rename_i hb
      injection h with h
      subst h
      exact ⟨rfl, fun _ => ⟨by simpa using hb, rfl⟩, fun _ => by omega⟩
  · rename_i hn
    injection h with h
    subst h
    exact ⟨rfl, fun hp => absurd ⟨hp, rfl⟩ hn, fun _ => rfl⟩

theorem readPayload_error {s : Stream} {off : Nat} {n : Int} {e : RErr} (h : readPayload (fun _ => true) s off n = .error e) : 0 < n ∧ i32 (s off n.toNat).length ≠ n := by
  unfold readPayload at h
  split at h
  · rename_i hn
    dsimp only at h
    split at h
    · rename_i hb
      exact ⟨hn.1, hb⟩
    · cases h
  · cases h

/-- the parts of a sub-block that is read -/
theorem layout_subBlock {kind : Kind} (hk : kind = .subBlock ∨ kind = .subBlockRW) {s : Stream} {pos : Nat} {d : SbData} (h : readSubBlockData (fun _ => true) s pos = .ok d) :
    ∃ m da a : Part, layout kind s pos = some [m, da, a] ∧ m.width = 4 ∧ da.width = 8 ∧ a.width = 4 ∧
      readPayload (fun _ => true) s m.off m.n = .ok d.metadata ∧ readPayload (fun _ => true) s da.off da.n = .ok d.data ∧
      readPayload (fun _ => true) s a.off a.n = .ok d.attachment := by
  unfold readSubBlockData at h
  rcases hh : readSbHeader s pos with e | ⟨b, c, pt, sp, g, len⟩
  · rw [hh] at h
    cases h
  · rw [hh] at h
    simp only [bind, Except.bind] at h
    rcases h1 : readPayload (fun _ => true) s (u64 (pos + len + 32)) (fieldInt b 32 4) with e | m
    · rw [h1] at h
      cases h
    · rw [h1] at h
      dsimp only at h
      rcases h2 : readPayload (fun _ => true) s (u64 (pos + len + 32 + fieldInt b 32 4)) (fieldInt b 40 8) with e | da
      · rw [h2] at h
        cases h
      · rw [h2] at h
        dsimp only at h
        rcases h3 : readPayload (fun _ => true) s (u64 (pos + len + 32 + fieldInt b 32 4 + fieldInt b 40 8)) (fieldInt b 36 4) with e | a
        · rw [h3] at h
          cases h
        · rw [h3] at h
          injection h with h
          subst h
          refine ⟨⟨u64 (pos + len + 32), fieldInt b 32 4, 4⟩, ⟨u64 (pos + len + 32 + fieldInt b 32 4), fieldInt b 40 8, 8⟩,
            ⟨u64 (pos + len + 32 + fieldInt b 32 4 + fieldInt b 40 8), fieldInt b 36 4, 4⟩, ?_, rfl, rfl, rfl, h1, h2, h3⟩
          rcases hk with e | e <;> subst e <;> simp only [layout, hh]

theorem layout_attachment {s : Stream} {pos : Nat} {d : Payload} (h : readAttachmentData (fun _ => true) s pos = .ok d) :
    ∃ p : Part, layout .attachment s pos = some [p] ∧ p.width = 8 ∧ readPayload (fun _ => true) s p.off p.n = .ok d := by
  unfold readAttachmentData at h
  rcases hh : readExact s pos 288 with e | b
  · rw [hh] at h
    cases h
  · rw [hh] at h
    simp only [bind, Except.bind] at h
    split at h
    · cases h
    · rename_i hm
      have hl : layout .attachment s pos = some [⟨u64 (pos + 288), fieldInt b 32 8, 8⟩] := by
        unfold layout
        simp only [hh, if_neg hm]
      exact ⟨_, hl, rfl, h⟩

theorem layout_metadata {s : Stream} {pos : Nat} {d : MetaData} (h : readMetadataData (fun _ => true) s pos = .ok d) :
    ∃ x a : Part, layout .metadata s pos = some [x, a] ∧ x.width = 8 ∧ a.width = 4 ∧ readPayload (fun _ => true) s x.off x.n = .ok d.xml ∧
      readPayload (fun _ => true) s a.off a.n = .ok d.attachment := by
  unfold readMetadataData at h
  rcases hh : readExact s pos 288 with e | b
  · rw [hh] at h
    cases h
  · rw [hh] at h
    simp only [bind, Except.bind] at h
    split at h
    · cases h
    · rename_i hm
      rcases h1 : readPayload (fun _ => true) s (u64 (pos + 288)) (fieldInt b 32 4) with e | x
      · rw [h1] at h
        cases h
      · rw [h1] at h
        dsimp only at h
        rcases h2 : readPayload (fun _ => true) s (u64 (pos + 288 + fieldInt b 32 4)) (fieldInt b 36 4) with e | a
        · rw [h2] at h
          cases h
        · rw [h2] at h
          injection h with h
          subst h
          exact ⟨⟨u64 (pos + 288), fieldInt b 32 4, 8⟩, ⟨u64 (pos + 288 + fieldInt b 32 4), fieldInt b 36 4, 4⟩, by simp only [layout, hh]; rw [if_neg hm], rfl, rfl, h1, h2⟩

theorem readObject_refused {kind : Kind} (hk : kind = .subBlock ∨ kind = .subBlockRW) {s : Stream} {pos : Nat} {e : RErr} (h : readSubBlockData (fun _ => true) s pos = .error e)
    {ok : Nat → Bool} (ho : ∀ j, ok j = true) {accepted : Bool} {fail : Option Nat} (hp : Heap) : (readObject kind s pos ok accepted fail hp).2 = none := by
  unfold readSubBlockData at h
  rcases hh : readSbHeader s pos with e | ⟨b, c, pt, sp, g, len⟩
  · have : layout kind s pos = none := by rcases hk with e | e <;> subst e <;> simp only [layout, hh]
    unfold readObject
    rw [this]
  · have hl : ∀ l, l = [(⟨u64 (pos + len + 32), fieldInt b 32 4, 4⟩ : Part), ⟨u64 (pos + len + 32 + fieldInt b 32 4), fieldInt b 40 8, 8⟩,
        ⟨u64 (pos + len + 32 + fieldInt b 32 4 + fieldInt b 40 8), fieldInt b 36 4, 4⟩] → layout kind s pos = some l := by
      intro l hl
      subst hl
      rcases hk with e | e <;> subst e <;> simp only [layout, hh]
    rw [hh] at h
    simp only [bind, Except.bind] at h
    rcases h1 : readPayload (fun _ => true) s (u64 (pos + len + 32)) (fieldInt b 32 4) with e | m
    · obtain ⟨a1, a2⟩ := readPayload_error h1
      exact readObject_throws (hl _ rfl) ho (List.mem_cons_self ..) a1 a2
    · rw [h1] at h
      dsimp only at h
      rcases h2 : readPayload (fun _ => true) s (u64 (pos + len + 32 + fieldInt b 32 4)) (fieldInt b 40 8) with e | da
      · obtain ⟨a1, a2⟩ := readPayload_error h2
        exact readObject_throws (hl _ rfl) ho (List.mem_cons_of_mem _ (List.mem_cons_self ..)) a1 a2
      · rw [h2] at h
        dsimp only at h
        rcases h3 : readPayload (fun _ => true) s (u64 (pos + len + 32 + fieldInt b 32 4 + fieldInt b 40 8)) (fieldInt b 36 4) with e | a
        · obtain ⟨a1, a2⟩ := readPayload_error h3
          exact readObject_throws (hl _ rfl) ho (List.mem_cons_of_mem _ (List.mem_cons_of_mem _ (List.mem_cons_self ..))) a1 a2
        · rw [h3] at h
          cases h

end Verif.Owned
