import Verif.Proof.OwnedRead
import Verif.Proof.Codec

/-! # C97: the memory of what is read -/

namespace Verif
open Verif.Owned Verif.Czi Verif.Spec.Owned

/-- **C97 (released exactly once, partial: as long as no allocation fails at a point where the functions do not clean up).** Whatever is read, with `malloc` failing or streams throwing at
any point, and whatever the user does with the objects and pointers: no block is ever released twice, and at every moment exactly those blocks are allocated that a variable of the user
gives access to, through an object or through a pointer. So nothing is lost when a call throws, and a pointer remains valid after the object, and the reader, are gone. -/
theorem C97_released_once_partial (ops : List Op) (h : ∀ op ∈ ops, HarmlessOp op) : Exact (World.start.run ops) :=
  (sound_start.run ops h).exact

/-- **C97 (nothing remains).** When the user has reset all variables, all memory is released. -/
theorem C97_all_released (ops : List Op) (h : ∀ op ∈ ops, HarmlessOp op) (hv : ∀ (v : Nat) (r : Ref), (World.start.run ops).vars[v]? ≠ some (some r)) (i : Nat) (b : List UInt8) :
    ¬ Contents (World.start.run ops) i b := by
  intro hc
  obtain ⟨v, hg⟩ := ((C97_released_once_partial ops h).2 i).mp ⟨b, hc⟩
  rcases hg with ⟨o, k, p, h0, _⟩ | ⟨o, k, p, h0, _⟩
  · exact hv v _ h0
  · exact hv v _ h0

private theorem run_append (w : World) (ops more : List Op) : w.run (ops ++ more) = (w.run ops).run more := by
  induction ops generalizing w with
  | nil => rfl
  | cons op ops ih => exact ih _

/-- **C97 (what is held does not change).** As long as the user keeps a variable, what it gives access to has the same contents, whatever else is read, copied or released. -/
theorem C97_kept (ops more : List Op) (h : ∀ op ∈ ops ++ more, HarmlessOp op) (v i : Nat) (hg : Gives (World.start.run ops) v i) (hk : ∀ op ∈ more, Keeps v op) :
    ∃ b, Contents (World.start.run ops) i b ∧ Contents (World.start.run (ops ++ more)) i b ∧ Gives (World.start.run (ops ++ more)) v i := by
  rw [run_append]
  have hs : Sound (World.start.run ops) := sound_start.run ops (fun op ho => h op (List.mem_append_left _ ho))
  have hm : ∀ op ∈ more, HarmlessOp op := fun op ho => h op (List.mem_append_right _ ho)
  generalize World.start.run ops = w at hg hs
  obtain ⟨b, hb⟩ := (hs.exact.2 i).mpr ⟨v, hg⟩
  refine ⟨b, hb, ?_⟩
  clear h
  induction more generalizing w with
  | nil => exact ⟨hb, hg⟩
  | cons op more ih =>
    have hs' := hs.step (hm op (List.mem_cons_self ..))
    have hg' := step_gives (hk op (List.mem_cons_self ..)) hg
    have hb' := step_shrinks (hm op (List.mem_cons_self ..)) i b hb ((hs'.exact.2 i).mpr ⟨v, hg'⟩)
    exact ih (fun o ho => hk o (List.mem_cons_of_mem _ ho)) (fun o ho => hm o (List.mem_cons_of_mem _ ho)) _ hg' hs' hb'

/-- **C97 (`GetRawData` keeps giving the same).** As long as the user keeps an object, `GetRawData` returns the same pointer and size for each of its parts. -/
theorem C97_same_pointer (w : World) (more : List Op) (v k : Nat) (r : Option Nat × Nat) (hr : w.rawData v k = some r) (hk : ∀ op ∈ more, Keeps v op) :
    (w.run more).rawData v k = some r := by
  induction more generalizing w with
  | nil => exact hr
  | cons op more ih =>
    refine ih (w.step op) ?_ (fun o ho => hk o (List.mem_cons_of_mem _ ho))
    unfold World.rawData at hr
    split at hr
    · rename_i o hv
      rcases hp : w.piece o k with _ | p
      · rw [hp] at hr
        cases hr
      · rw [hp] at hr
        simp only [Option.map_some, Option.some.injEq] at hr
        obtain ⟨q, hq, e1, e2⟩ := step_piece (op := op) hp
        unfold World.rawData
        rw [step_vars (hk op (List.mem_cons_self ..)) hv]
        simp only [hq, Option.map_some, e1, e2, hr]
    · cases hr

private theorem shown_of {w : World} {v k : Nat} {s : Stream} {p : Part} {d : Payload} (h : Shows w v k s p) (hd : readPayload (fun _ => true) s p.off p.n = .ok d) :
    Shown w v k (8 * p.width) d := by
  obtain ⟨ptr, h1, h2⟩ := h
  obtain ⟨e, hpos, hneg⟩ := readPayload_ok hd
  refine ⟨ptr, by rw [e]; exact h1, ?_, ?_⟩
  · intro hn
    rcases h2 with ⟨hp, _⟩ | ⟨_, hp⟩
    · rw [(hpos hp).2] at hn
      cases hn
    · exact hp
  · intro b hb
    rcases h2 with ⟨hp, _, i, hi, hc⟩ | ⟨hp, _⟩
    · rw [(hpos hp).2] at hb
      injection hb with hb
      exact ⟨i, hi, hb ▸ hc⟩
    · rw [hneg hp] at hb
      cases hb

private theorem ok_of {s : Stream} {p : Part} {d : Payload} (hd : readPayload (fun _ => true) s p.off p.n = .ok d) (hn : 0 < p.n) : i32 (s p.off p.n.toNat).length = p.n :=
  ((readPayload_ok hd).2.1 hn).1

/-- **C97 (sub-blocks).** With enough memory, reading a sub-block gives an object whose `GetRawData` returns, for each type of memory, exactly this part of the segment (what that is in a
document that was written is C01); and if the segment is refused the call throws and the variables are as before. -/
theorem C97_subblock (w : World) (kind : Kind) (hk : kind = .subBlock ∨ kind = .subBlockRW) (s : Stream) (pos : Nat) :
    (∀ d, readSubBlockData (fun _ => true) s pos = .ok d →
      (w.step (.read kind s pos (fun _ => true) true none)).vars = w.vars ++ [some (.obj w.objs.length)] ∧
      Shown (w.step (.read kind s pos (fun _ => true) true none)) w.vars.length 0 64 d.data ∧
      Shown (w.step (.read kind s pos (fun _ => true) true none)) w.vars.length 1 32 d.attachment ∧
      Shown (w.step (.read kind s pos (fun _ => true) true none)) w.vars.length 2 32 d.metadata) ∧
    (∀ e, readSubBlockData (fun _ => true) s pos = .error e → (w.step (.read kind s pos (fun _ => true) true none)).vars = w.vars) := by
  refine ⟨?_, ?_⟩
  · intro d hd
    obtain ⟨m, da, a, hl, w1, w2, w3, h1, h2, h3⟩ := layout_subBlock hk hd
    obtain ⟨g1, _, g3⟩ := step_shows w hl (by
      intro p hp hn
      simp only [List.mem_cons, List.not_mem_nil, or_false] at hp
      rcases hp with e | e | e <;> subst e
      · exact ok_of h1 hn
      · exact ok_of h2 hn
      · exact ok_of h3 hn)
    have ho : memberOrder kind [m, da, a] = [da, a, m] := by rcases hk with e | e <;> subst e <;> rfl
    refine ⟨g1, ?_, ?_, ?_⟩
    · have := shown_of (g3 0 da (by rw [ho]; rfl)) h2
      rwa [w2] at this
    · have := shown_of (g3 1 a (by rw [ho]; rfl)) h3
      rwa [w3] at this
    · have := shown_of (g3 2 m (by rw [ho]; rfl)) h1
      rwa [w1] at this
  · intro e he
    have := readObject_refused hk he (ok := fun _ => true) (fun _ => rfl) (accepted := true) (fail := none) w.heap
    unfold World.step
    rcases hx : readObject kind s pos (fun _ => true) true none w.heap with ⟨h', r⟩
    rw [hx] at this
    dsimp only at this
    subst this
    simp only [hx]

/-- **C97 (attachments and metadata segments).** The same for attachments and for the metadata segment. -/
theorem C97_attachment (w : World) (s : Stream) (pos : Nat) :
    (∀ d, readAttachmentData (fun _ => true) s pos = .ok d →
      (w.step (.read .attachment s pos (fun _ => true) true none)).vars = w.vars ++ [some (.obj w.objs.length)] ∧
      Shown (w.step (.read .attachment s pos (fun _ => true) true none)) w.vars.length 0 64 d) ∧
    (∀ d, readMetadataData (fun _ => true) s pos = .ok d →
      (w.step (.read .metadata s pos (fun _ => true) true none)).vars = w.vars ++ [some (.obj w.objs.length)] ∧
      Shown (w.step (.read .metadata s pos (fun _ => true) true none)) w.vars.length 0 64 d.xml ∧
      Shown (w.step (.read .metadata s pos (fun _ => true) true none)) w.vars.length 1 32 d.attachment) := by
  refine ⟨?_, ?_⟩
  · intro d hd
    obtain ⟨p, hl, w1, h1⟩ := layout_attachment hd
    obtain ⟨g1, _, g3⟩ := step_shows w hl (by
      intro q hq hn
      simp only [List.mem_cons, List.not_mem_nil, or_false] at hq
      subst hq
      exact ok_of h1 hn)
    refine ⟨g1, ?_⟩
    have := shown_of (g3 0 p rfl) h1
    rwa [w1] at this
  · intro d hd
    obtain ⟨x, a, hl, w1, w2, h1, h2⟩ := layout_metadata hd
    obtain ⟨g1, _, g3⟩ := step_shows w hl (by
      intro p hp hn
      simp only [List.mem_cons, List.not_mem_nil, or_false] at hp
      rcases hp with e | e <;> subst e
      · exact ok_of h1 hn
      · exact ok_of h2 hn)
    refine ⟨g1, ?_, ?_⟩
    · have := shown_of (g3 0 x rfl) h1
      rwa [w1] at this
    · have := shown_of (g3 1 a rfl) h2
      rwa [w2] at this

/-! ## Sizes -/

private theorem layout_width {kind : Kind} {s : Stream} {pos : Nat} {ps : List Part} (h : layout kind s pos = some ps) : ∀ p ∈ ps, 4 ≤ p.width := by
  unfold layout at h
  cases kind <;> dsimp only at h
  · split at h
    · injection h with h; subst h; simp
    · cases h
  · split at h
    · injection h with h; subst h; simp
    · cases h
  · split at h
    · split at h
      · cases h
      · injection h with h; subst h; simp
    · cases h
  · split at h
    · split at h
      · cases h
      · injection h with h; subst h; simp
    · cases h

private theorem size_eq {p : Part} {n : Nat} (hw : 4 ≤ p.width) (h1 : 0 < p.n) (h2 : n ≤ p.n.toNat) (h3 : i32 n = p.n) : p.size = n := by
  have hlt : p.n < 2 ^ 31 := by
    rw [← h3]
    unfold i32 toSigned
    split <;> omega
  have hn : (n : Int) = p.n := by
    have e : i32 (n : Int) = n := by
      unfold i32 toSigned
      have : ((n : Int) % (2 ^ 32 : Nat)).toNat = n := by omega
      rw [this, if_pos (by omega)]
    rw [← h3, e]
  have hpow : (2 ^ 32 : Nat) ≤ 2 ^ (8 * p.width) := Nat.pow_le_pow_right (by omega) (by omega)
  unfold Part.size
  rw [Int.emod_eq_of_lt (by omega) (by omega)]
  omega

private def SizesFit (w : World) : Prop := ∀ o k p i b, w.piece o k = some p → p.ptr = some i → Contents w i b → p.size = b.length

private theorem sizes_step {w : World} (s : Sound w) (hf : SizesFit w) {op : Op} (hop : HarmlessOp op) (hh : HonestOp op) : SizesFit (w.step op) := by
  have hs' := s.step hop
  intro o k p i b hp hi hb
  by_cases hlt : ∃ q, w.piece o k = some q
  · obtain ⟨q, hq⟩ := hlt
    obtain ⟨p', hp', e1, e2⟩ := step_piece (op := op) hq
    rw [hp] at hp'
    injection hp' with hp'
    subst hp'
    have hqi : q.ptr = some i := e1.symm.trans hi
    -- the block was allocated before: it has an owner now, and the call does not allocate old blocks
    have hil := s.core.lt o k q i hq hqi
    have hal : ∃ c, Contents w i c := by
      rcases hx : w.heap.mem[i]? with _ | x
      · rw [List.getElem?_eq_none_iff] at hx
        omega
      · cases x with
        | some c => exact ⟨c, hx⟩
        | none =>
          exfalso
          have hdead : ¬ w.heap.Alive i := by
            rintro ⟨c, hc⟩
            rw [hx] at hc
            cases hc
          -- a released block is not allocated again
          have hstay : ¬ (w.step op).heap.Alive i := by
            cases op with
            | read kind st pos ok accepted fail =>
              have hr := readObject_spec hop st pos ok accepted w.heap
              unfold World.step
              rcases he : readObject kind st pos ok accepted fail w.heap with ⟨h, r⟩
              rw [he] at hr
              have hg : Grown w.heap h := by
                cases r with
                | none => exact hr.grown
                | some ps => exact hr.grown
              simp only [he]
              have : ¬ h.Alive i := by
                rintro ⟨c, hc⟩
                rw [hg.old i hil, hx] at hc
                cases hc
              cases r with
              | none => exact this
              | some ps => exact this
            | raw v k =>
              unfold World.step
              dsimp only
              split
              · split <;> exact hdead
              · exact hdead
            | copy v =>
              unfold World.step
              dsimp only
              split
              · rename_i r hv
                cases r <;> exact hdead
              · exact hdead
            | drop v =>
              unfold World.step
              dsimp only
              split
              · rename_i o' _
                intro ha
                unfold World.releaseObj at ha
                split at ha
                · exact hdead ha
                · dsimp only at ha
                  split at ha
                  · exact hdead ((releasePieces_shrinks _ (⟨w.heap, w.objs.modify o' (fun b => { b with owners := b.owners - 1 }), w.vars.set v none⟩ : World) o').2 i ha)
                  · exact hdead ha
              · exact fun ha => hdead ((releasePiece_shrinks { w with vars := w.vars.set v none } _ _).2 i ha)
              · exact hdead
          exact hstay ⟨b, hb⟩
    obtain ⟨c, hc⟩ := hal
    have hcb := step_shrinks hop i c hc ⟨b, hb⟩
    have : c = b := by
      have hb' : (w.step op).heap.mem[i]? = some (some b) := hb
      rw [hb'] at hcb
      injection hcb with hcb
      injection hcb with hcb
      exact hcb.symm
    subst this
    rw [e2]
    exact hf o k q i c hq hqi hc
  · -- a new piece
    cases op with
    | read kind st pos ok accepted fail =>
      unfold World.step at hp hb
      rcases he : readObject kind st pos ok accepted fail w.heap with ⟨h, r⟩
      simp only [he] at hp hb
      cases r with
      | none => exact absurd ⟨p, hp⟩ hlt
      | some ps =>
        dsimp only at hp hb
        rw [piece_append] at hp
        split at hp
        · obtain ⟨parts, ptrs, h1, h2, h3⟩ := readObject_some he
          obtain ⟨d1, _⟩ := readParts_delivered h2
          dsimp only at hp
          rw [h3] at hp
          simp only [List.map_map, List.getElem?_map] at hp
          rcases hq : (memberOrder kind (ptrs.zip parts))[k]? with _ | q
          · rw [hq] at hp
            cases hp
          · rw [hq] at hp
            simp only [Option.map_some, Function.comp, Option.some.injEq] at hp
            subst hp
            have hqm : q ∈ ptrs.zip parts := (memberOrder_perm kind _).mem_iff.mp (List.mem_of_getElem? hq)
            obtain ⟨a1, a2, a3⟩ := d1 q hqm i hi
            have hb' : h.mem[i]? = some (some b) := hb
            rw [a2] at hb'
            injection hb' with hb'
            injection hb' with hb'
            subst hb'
            exact size_eq (layout_width h1 q.2 (List.of_mem_zip hqm).2) a1 (hh _ _) a3
        · exact absurd ⟨p, hp⟩ hlt
    | raw v k' =>
      exfalso
      apply hlt
      have hn : w.piece o k = none := by
        rcases hx : w.piece o k with _ | x
        · rfl
        · exact absurd ⟨x, hx⟩ hlt
      unfold World.step at hp
      dsimp only at hp
      split at hp
      · split at hp
        · obtain ⟨q, hq, _⟩ := piece_setOwners_some (w := w) (f := (· + 1)) hp
          exact ⟨q, hq⟩
        · exact ⟨p, hp⟩
      · exact ⟨p, hp⟩
    | copy v =>
      exfalso
      apply hlt
      unfold World.step at hp
      dsimp only at hp
      split at hp
      · rename_i r hv
        cases r with
        | obj o' =>
          have := (piece_objOwners w o' (· + 1) (w.vars ++ [some (.obj o')]) o k).symm.trans hp
          exact ⟨p, this⟩
        | raw o' k' =>
          obtain ⟨q, hq, _⟩ := piece_setOwners_some (w := w) (o := o') (k := k') (f := (· + 1)) hp
          exact ⟨q, hq⟩
      · exact ⟨p, hp⟩
    | drop v =>
      exfalso
      apply hlt
      have hpieces : ∀ n (w' : World) o', (∃ q, (w'.releasePieces o' n).piece o k = some q) → ∃ q, w'.piece o k = some q := by
        intro n
        induction n with
        | zero => exact fun _ _ h => h
        | succ n ih =>
          intro w' o' h
          obtain ⟨q, hq⟩ := ih _ _ h
          obtain ⟨q', hq', _⟩ := releasePiece_old hq
          exact ⟨q', hq'⟩
      unfold World.step at hp
      dsimp only at hp
      split at hp
      · rename_i o' _
        unfold World.releaseObj at hp
        split at hp
        · exact ⟨p, hp⟩
        · have hobj := piece_objOwners w o' (· - 1) (w.vars.set v none) o k
          dsimp only at hp
          split at hp
          · obtain ⟨q, hq⟩ := hpieces _ _ _ ⟨p, hp⟩
            exact ⟨q, hobj.symm.trans hq⟩
          · exact ⟨p, hobj.symm.trans hp⟩
      · obtain ⟨q, hq, _⟩ := releasePiece_old hp
        exact ⟨q, hq⟩
      · exact ⟨p, hp⟩

/-- **C97 (sizes, partial: for pointers that are not null).** If the streams deliver at most what they are asked for, the size that `GetRawData` returns together with a pointer is the
number of bytes behind the pointer. -/
theorem C97_size_partial (ops : List Op) (h : ∀ op ∈ ops, HarmlessOp op ∧ HonestOp op) (v k i n : Nat) (hr : (World.start.run ops).rawData v k = some (some i, n)) :
    ∃ b, Contents (World.start.run ops) i b ∧ b.length = n := by
  have hinv : ∀ (l : List Op) (w : World), (∀ op ∈ l, HarmlessOp op ∧ HonestOp op) → Sound w → SizesFit w → Sound (w.run l) ∧ SizesFit (w.run l) := by
    intro l
    induction l with
    | nil => exact fun w _ a b => ⟨a, b⟩
    | cons op l ih =>
      intro w hl a b
      have := hl op (List.mem_cons_self ..)
      exact ih _ (fun o ho => hl o (List.mem_cons_of_mem _ ho)) (a.step this.1) (sizes_step a b this.1 this.2)
  obtain ⟨hs, hf⟩ := hinv ops World.start h sound_start (by
    intro o k p i b hp
    simp [World.start, World.piece] at hp)
  generalize World.start.run ops = w at hr hs hf
  unfold World.rawData at hr
  split at hr
  · rename_i o hv
    rcases hp : w.piece o k with _ | p
    · rw [hp] at hr
      cases hr
    · rw [hp] at hr
      simp only [Option.map_some, Option.some.injEq, Prod.mk.injEq] at hr
      obtain ⟨e1, e2⟩ := hr
      obtain ⟨b, hb⟩ := (hs.exact.2 i).mpr ⟨v, .inl ⟨o, k, p, hv, hp, e1⟩⟩
      exact ⟨b, hb, (hf o k p i b hp e1 hb).symm.trans e2⟩
  · cases hr

/-! ## Where it fails -/

private theorem layout_att {s : Stream} {pos : Nat} (h1 : (s pos 288).length = 288) (h2 : segMagic (s pos 288) = attMagic) :
    layout .attachment s pos = some [⟨u64 (pos + 288), fieldInt (s pos 288) 32 8, 8⟩] := by
  have : readExact s pos 288 = .ok (s pos 288) := by
    unfold readExact
    exact if_pos h1
  unfold layout
  simp only [this]
  rw [if_neg (by rw [h2]; simp)]

/-- **C97 (violated: a null pointer with a size).** An attachment whose stored size is negative, and an attachment for which `malloc` fails, are read without an error; `GetRawData` then
gives the null pointer, together with a size that is not zero: the user who reads so many bytes from the pointer crashes. -/
theorem C97_null_pointer_violated (w : World) (s : Stream) (pos : Nat) (h1 : (s pos 288).length = 288) (h2 : segMagic (s pos 288) = attMagic) :
    (fieldInt (s pos 288) 32 8 < 0 → (w.step (.read .attachment s pos (fun _ => true) true none)).rawData w.vars.length 0 = some (none, (fieldInt (s pos 288) 32 8 + 2 ^ 64).toNat)) ∧
    (fieldInt (s pos 288) 32 8 > 0 → (w.step (.read .attachment s pos (fun _ => false) true none)).rawData w.vars.length 0 = some (none, (fieldInt (s pos 288) 32 8).toNat)) := by
  have hl := layout_att h1 h2
  have hr : -2 ^ 63 ≤ fieldInt (s pos 288) 32 8 ∧ fieldInt (s pos 288) 32 8 < 2 ^ 63 := by
    unfold fieldInt unleInt
    have h := unle_lt (field (s pos 288) 32 8)
    have h2 : (field (s pos 288) 32 8).length ≤ 8 := by unfold field; simp; omega
    have h3 : (256 : Nat) ^ (field (s pos 288) 32 8).length ≤ 256 ^ 8 := Nat.pow_le_pow_right (by omega) h2
    generalize unle (field (s pos 288) 32 8) = v at *
    generalize (field (s pos 288) 32 8).length = n at *
    unfold toSigned
    generalize (256 : Nat) ^ n = m at *
    have : (256 : Nat) ^ 8 = 18446744073709551616 := rfl
    split <;> omega
  refine ⟨?_, ?_⟩
  · intro hn
    obtain ⟨_, _, g⟩ := step_shows w hl (by
      intro p hp hq
      simp only [List.mem_cons, List.not_mem_nil, or_false] at hp
      subst hp
      dsimp only at hq
      omega)
    obtain ⟨ptr, e1, e2⟩ := g 0 _ rfl
    rcases e2 with ⟨hq, _⟩ | ⟨_, hp⟩
    · dsimp only at hq
      omega
    · subst hp
      rw [e1]
      unfold Part.size
      dsimp only
      congr 3
      omega
  · intro hn
    have hro : readObject .attachment s pos (fun _ => false) true none w.heap = (w.heap, some [(none, Part.size ⟨u64 (pos + 288), fieldInt (s pos 288) 32 8, 8⟩)]) := by
      unfold readObject
      simp only [hl, readParts, allocAll, fillAll, List.zip_cons_cons, List.zip_nil_right, Bool.false_eq_true, and_false, if_false, memberOrder, List.map_cons, List.map_nil,
        makeShared, before, Owned.control, Option.any_none]
      rfl
    unfold World.rawData World.step
    simp only [hro, List.map_cons, List.map_nil, List.getElem?_append_right (Nat.le_refl _), Nat.sub_self, List.getElem?_cons_zero]
    rw [piece_append, if_pos rfl]
    simp only [List.getElem?_cons_zero, Option.map_some, Part.size]
    congr 2
    omega

private theorem control_false (qs : List (Option Nat)) (h : Heap) (k f : Nat) (bs : List (Option Nat)) (hk : k ≤ f) (hf : f < k + qs.length) :
    ∃ l, Owned.control (some f) h k bs qs = (h.freeAll l, false) ∧ (∀ x ∈ bs, x ∈ l) ∧ (∀ x ∈ qs.take (f - k + 1), x ∈ l) := by
  induction qs generalizing k bs with
  | nil => simp at hf; omega
  | cons q qs ih =>
    unfold Owned.control
    by_cases he : f = k
    · subst he
      rw [if_pos rfl]
      exact ⟨q :: bs, rfl, fun x hx => List.mem_cons_of_mem _ hx, by simp⟩
    · rw [if_neg (by simpa using he)]
      obtain ⟨l, e1, e2, e3⟩ := ih (k + 1) (q :: bs) (by omega) (by simp at hf; omega)
      refine ⟨l, e1, fun x hx => e2 x (List.mem_cons_of_mem _ hx), ?_⟩
      intro x hx
      rw [show f - k + 1 = (f - (k + 1) + 1) + 1 by omega, List.take_succ_cons, List.mem_cons] at hx
      rcases hx with e | hx
      · exact e2 x (by rw [e]; exact List.mem_cons_self ..)
      · exact e3 x hx

/-- **C97 (violated: memory released twice).** If `ICZIReader::ReadSubBlock` has read a sub-block with pixel data, and there is no memory for the counter of one of its three shared
pointers, the pixel data is released twice: by the shared pointers, and again by the guards that were meant to prevent a leak. -/
theorem C97_released_twice_violated (w : World) (s : Stream) (pos : Nat) (d : SbData) (h : readSubBlockData (fun _ => true) s pos = .ok d) (hd : d.data.size > 0) (f : Nat)
    (hf : f = 1 ∨ f = 2 ∨ f = 3) : (w.step (.read .subBlock s pos (fun _ => true) true (some f))).heap.broken = true := by
  obtain ⟨m, da, a, hl, _, _, _, h1, h2, h3⟩ := layout_subBlock (.inl rfl) h
  obtain ⟨h', ptrs, hr⟩ := readParts_ok (ok := fun _ => true) (s := s) (h := w.heap) (ps := [m, da, a]) (by
    intro p hp hn
    simp only [List.mem_cons, List.not_mem_nil, or_false] at hp
    rcases hp with e | e | e <;> subst e
    · exact ok_of h1 hn
    · exact ok_of h2 hn
    · exact ok_of h3 hn)
  have hdn : 0 < da.n := by
    rw [← (readPayload_ok h2).1]
    exact hd
  obtain ⟨_, hd2⟩ := readParts_delivered hr
  have hlen : ptrs.length = 3 := by
    have := readParts_spec (fun _ => true) s w.heap [m, da, a]
    rw [hr] at this
    exact this.2
  match ptrs, hlen with
  | [pm, pd, pa], _ =>
    obtain ⟨i, hi⟩ := hd2 (fun _ => rfl) (pd, da) (by simp) hdn
    dsimp only at hi
    subst hi
    obtain ⟨l, e1, _, e3⟩ := control_false [some i, pa, pm] h' 1 f [] (by omega) (by simp; omega)
    have hi : some i ∈ l := e3 _ (by
      rw [List.take_succ_cons]
      exact List.mem_cons_self ..)
    have hro : readObject .subBlock s pos (fun _ => true) true (some f) w.heap = ((h'.freeAll l).freeAll [pm, pa, some i], none) := by
      unfold readObject
      simp only [hl, hr, List.zip_cons_cons, List.zip_nil_right, memberOrder, List.map_cons, List.map_nil, makeShared, before, Option.any_some, if_true]
      rw [if_neg (by simp; omega), e1]
      rfl
    unfold World.step
    simp only [hro]
    exact freeAll_twice _ _ (by simp) (freeAll_dead l h' hi)

/-- **C97 (violated: memory lost).** If there is no memory for the object itself (for an attachment: or for one of the two copies of its name), `ReadAttachment`,
`ReadMetadataSegment` and `ICziReaderWriter::ReadSubBlock` throw, and what was read stays allocated although no variable gives access to it. -/
theorem C97_leak_violated (ops : List Op) (h : ∀ op ∈ ops, HarmlessOp op) (kind : Kind) (hk : kind ≠ .subBlock) (s : Stream) (pos : Nat) (ps : List Part)
    (hl : layout kind s pos = some ps) (hp : ∀ p ∈ ps, 0 < p.n → i32 (s p.off p.n.toNat).length = p.n) (hn : ∃ p ∈ ps, 0 < p.n) (f : Nat) (hf : f < before kind) :
    ∃ i b, Contents (World.start.run (ops ++ [.read kind s pos (fun _ => true) true (some f)])) i b ∧
      ∀ v, ¬ Gives (World.start.run (ops ++ [.read kind s pos (fun _ => true) true (some f)])) v i := by
  rw [run_append]
  have hs := sound_start.run ops h
  generalize World.start.run ops = w at hs
  obtain ⟨h', ptrs, hr⟩ := readParts_ok (ok := fun _ => true) (s := s) (h := w.heap) hp
  obtain ⟨hd1, hd2⟩ := readParts_delivered hr
  have hsp := readParts_spec (fun _ => true) s w.heap ps
  rw [hr] at hsp
  obtain ⟨hnb, hlen⟩ := hsp
  obtain ⟨p, hpm, hpn⟩ := hn
  obtain ⟨j, hj, hje⟩ := List.getElem_of_mem hpm
  have hz : (ptrs[j], p) ∈ ptrs.zip ps := by
    rw [← hje]
    have : (ptrs.zip ps)[j]'(by rw [List.length_zip]; omega) = (ptrs[j], ps[j]) := List.getElem_zip
    rw [← this]
    exact List.getElem_mem _
  obtain ⟨i, hi⟩ := hd2 (fun _ => rfl) _ hz hpn
  dsimp only at hi
  have hnew : w.heap.mem.length ≤ i := hnb.new i (by rw [← hi]; exact List.getElem_mem _)
  obtain ⟨_, hc, _⟩ := hd1 _ hz i hi
  have hro : readObject kind s pos (fun _ => true) true (some f) w.heap = (h', none) := by
    unfold readObject
    simp only [hl, hr, makeShared, Option.any_some, hk, if_false]
    rw [if_pos (by simpa using hf)]
  have hst : (w.run [.read kind s pos (fun _ => true) true (some f)]) = { w with heap := h' } := by
    unfold World.run World.run World.step
    simp only [hro]
  rw [hst]
  refine ⟨i, _, hc, ?_⟩
  intro v hg
  rcases hg with ⟨o, k, q, _, hq, hqi⟩ | ⟨o, k, q, _, hq, hqi⟩
  · have := hs.core.lt o k q i hq hqi
    omega
  · have := hs.core.lt o k q i hq hqi
    omega

/-! ## Examples -/

/-- A sub-block with one dimension, two bytes of metadata and three of data. -/
private def sbBytes : List UInt8 :=
  subBlockMagic ++ zeros 16 ++ [2, 0, 0, 0] ++ [0, 0, 0, 0] ++ [3, 0, 0, 0, 0, 0, 0, 0] ++ [68, 86] ++ zeros 26 ++ [1, 0, 0, 0] ++
    [88, 0, 0, 0, 0, 0, 0, 0, 3, 0, 0, 0, 0, 0, 0, 0, 3, 0, 0, 0] ++ zeros 188 ++ [7, 8] ++ [1, 2, 3]

/-- An attachment with a size, and contents. -/
private def attBytes (n c : List UInt8) : List UInt8 := attMagic ++ zeros 16 ++ n ++ zeros 248 ++ c

private def streamOf (b : List UInt8) : Czi.Stream := fun off n => (b.drop off).take n

private theorem streamOf_honest (b : List UInt8) (off n : Nat) : (streamOf b off n).length ≤ n := by
  unfold streamOf
  rw [List.length_take]
  omega

/-- The pixels are kept by the pointer after the sub-block was released; the metadata is gone. -/
private def history : List Op := [.read .subBlock (streamOf sbBytes) 0 (fun _ => true) true none, .raw 0 0, .drop 0]

private theorem history_run : World.start.run history =
    ⟨⟨[none, some [1, 2, 3]], false⟩, [⟨[⟨some 1, 3, 1⟩, ⟨none, 0, 0⟩, ⟨some 0, 2, 0⟩], 0⟩], [none, some (.raw 0 0)]⟩ := by decide +kernel

private theorem history_ok : ∀ op ∈ history, HarmlessOp op ∧ HonestOp op := by
  intro op h
  unfold history at h
  simp only [List.mem_cons, List.not_mem_nil, or_false] at h
  rcases h with e | e | e <;> subst e
  · exact ⟨trivial, streamOf_honest _⟩
  · exact ⟨trivial, trivial⟩
  · exact ⟨trivial, trivial⟩

example : Exact (World.start.run history) := C97_released_once_partial _ (fun op h => (history_ok op h).1)

/-- After releasing the pointer, nothing is left; the variables are all reset. -/
example : (World.start.run (history ++ [.drop 1])).heap = ⟨[none, none], false⟩ ∧ ∀ (v : Nat) (r : Ref), (World.start.run (history ++ [.drop 1])).vars[v]? ≠ some (some r) := by
  have : (World.start.run (history ++ [.drop 1])).vars = [none, none] := by decide +kernel
  refine ⟨by decide +kernel, ?_⟩
  intro v r h
  rw [this] at h
  match v with
  | 0 => simp at h
  | 1 => simp at h
  | n + 2 => simp at h

/-- The pointer gives access to the pixels, and continues to while another object is read and released. -/
example : Gives (World.start.run history) 1 1 ∧ (∀ op ∈ [Op.read .attachment (streamOf (attBytes [1, 0, 0, 0, 0, 0, 0, 0] [5])) 0 (fun _ => true) true none, .drop 2], Keeps 1 op) ∧
    Contents (World.start.run (history ++ [Op.read .attachment (streamOf (attBytes [1, 0, 0, 0, 0, 0, 0, 0] [5])) 0 (fun _ => true) true none, .drop 2])) 1 [1, 2, 3] := by
  refine ⟨?_, ?_, ?_⟩
  · rw [history_run]
    exact .inr ⟨0, 0, ⟨some 1, 3, 1⟩, rfl, rfl, rfl⟩
  · intro op h
    simp only [List.mem_cons, List.not_mem_nil, or_false] at h
    rcases h with e | e <;> subst e
    · exact trivial
    · show (2 : Nat) ≠ 1
      omega
  · unfold Contents
    decide +kernel

/-- The sub-block is read, with what was stored. -/
example : (readSubBlockData (fun _ => true) (streamOf sbBytes) 0).toOption.map (fun d => (d.data, d.attachment, d.metadata)) = some (⟨3, some [1, 2, 3]⟩, ⟨0, none⟩, ⟨2, some [7, 8]⟩) := by
  decide +kernel

/-- `GetRawData` of the sub-block, with the size. -/
example : (World.start.run [.read .subBlock (streamOf sbBytes) 0 (fun _ => true) true none]).rawData 0 0 = some (some 1, 3) := by decide +kernel

/-- A stored size of -1, as in `C97_null_pointer_violated`. -/
example : (World.start.step (.read .attachment (streamOf (attBytes [255, 255, 255, 255, 255, 255, 255, 255] [])) 0 (fun _ => true) true none)).rawData 0 0 = some (none, 2 ^ 64 - 1) ∧
    (streamOf (attBytes [255, 255, 255, 255, 255, 255, 255, 255] []) 0 288).length = 288 ∧ segMagic (streamOf (attBytes [255, 255, 255, 255, 255, 255, 255, 255] []) 0 288) = attMagic := by
  decide +kernel

/-- Released twice. -/
example : (World.start.step (.read .subBlock (streamOf sbBytes) 0 (fun _ => true) true (some 2))).heap = ⟨[none, none], true⟩ := by decide +kernel

/-- Lost. -/
example : World.start.step (.read .attachment (streamOf (attBytes [1, 0, 0, 0, 0, 0, 0, 0] [5])) 0 (fun _ => true) true (some 0)) = ⟨⟨[some [5]], false⟩, [], []⟩ ∧
    layout .attachment (streamOf (attBytes [1, 0, 0, 0, 0, 0, 0, 0] [5])) 0 = some [⟨288, 1, 8⟩] ∧ i32 (streamOf (attBytes [1, 0, 0, 0, 0, 0, 0, 0] [5]) 288 1).length = 1 := by
  decide +kernel

/-- A failing allocation after which the function cleans up: nothing is left. -/
example : Harmless .metadata (some 2) ∧ Harmless .subBlock (some 0) ∧ World.start.step (.read .subBlock (streamOf sbBytes) 0 (fun _ => true) true (some 0)) = ⟨⟨[none, none], false⟩, [], []⟩ :=
  ⟨by show (2 : Nat) ≤ 2; omega, .inl rfl, by decide +kernel⟩

end Verif
