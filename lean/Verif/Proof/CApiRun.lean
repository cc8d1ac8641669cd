import Verif.Proof.CApiSteps

/-!
# Reference counting: histories
-/

namespace Verif

open Verif.CApi Verif.Spec

/-- Whether the call passes the stream with number `e` to the library. -/
def passes (e : Nat) (c : Call) : Nat := match c with
  | .create _ (some e') true => if e' = e then 1 else 0
  | _ => 0

/-- An unchanged state satisfies the invariant. -/
def StepOk (made : Nat → Nat) (c : Call) (r : Option Res) : Prop := ∃ x, r = some x ∧ Counted x.st [] (fun e => made e + passes e c)

theorem stepOk_same {s : St} {made : Nat → Nat} (hs : Counted s [] made) {c : Call} (hc : ∀ e, passes e c = 0) (code : Code) (out : Option Nat) :
    StepOk made c (some ⟨code, out, s⟩) := by
  refine ⟨_, rfl, ?_⟩
  have : (fun e => made e + passes e c) = made := by funext e; rw [hc]; rfl
  rw [this]; exact hs

theorem stepOk_of {s' : St} {made : Nat → Nat} {c : Call} (hc : ∀ e, passes e c = 0) (hs : Counted s' [] made) (code : Code) (out : Option Nat) :
    StepOk made c (some ⟨code, out, s'⟩) := stepOk_same hs hc code out

theorem stepOk_check {s : St} {made : Nat → Nat} (hs : Counted s [] made) {c : Call} (hp : ∀ e, passes e c = 0) {k : Kind} {h : Nat}
    (hh : h = 0 ∨ ∃ k, LiveHandle s k h) (hc : ∀ k', LiveHandle s k' h → ¬Confusable k' k) (next : Option Nat → Option Res)
    (hn : ∀ w o x, w ∈ s.wrappers → w.addr = h → w.kind = k → w.obj = some o → (o, x) ∈ s.objs → x.kind = k → StepOk made c (next (some o))) :
    StepOk made c (check s k h next) := by
  rcases check_cases hs hh hc next with ⟨_, e⟩ | ⟨_, _, e⟩ | ⟨w, o, x, h1, h2, h3, h4, h5, h6, _, e⟩
  · rw [e]; exact stepOk_same hs hp _ _
  · rw [e]; exact stepOk_same hs hp _ _
  · rw [e]; exact hn w o x h1 h2 h3 h4 h5 h6

/-- The reference count of an object with a new reference that is pending. -/
theorem incr_ok {s : St} {made : Nat → Nat} (hs : Counted s [] made) {o : Nat} {x : Obj} (hx : (o, x) ∈ s.objs) (hb : x.kind ≠ .bitmap) :
    Counted (s.setObj o fun x => { x with count := x.count + 1 }) [o] made :=
  (hs.recount hx (fun x => { x with count := x.count + 1 }) [o] ⟨rfl, rfl, rfl, rfl⟩ (by dsimp only; omega)
    (fun u hu => Or.inr ⟨List.mem_singleton.1 hu, hb⟩) (fun e => absurd e hb) (by simp)
    (fun u hu => by rw [List.count_singleton, if_neg (by simpa using fun e : o = u => hu e.symm), List.count_nil])).1

theorem mem_setObj {s : St} {p : List Nat} {made : Nat → Nat} (hs : Counted s p made) {o : Nat} (f : Obj → Obj) {u : Nat} {y : Obj} (hy : (u, y) ∈ s.objs) :
    (u, if u = o then f y else y) ∈ (s.setObj o f).objs := by
  unfold St.setObj
  dsimp only
  refine List.mem_map.2 ⟨(u, y), hy, ?_⟩
  dsimp only
  by_cases h : u = o
  · rw [if_pos h, if_pos h]
  · rw [if_neg h, if_neg h]

/-- The stream is stored in the reader or writer. -/
theorem install_ok {s : St} {made : Nat → Nat} (hs : Counted s [] made) {o i : Nat} {x y : Obj} (hx : (o, x) ∈ s.objs) (hy : (i, y) ∈ s.objs)
    (hu : x.uses = []) (hr : rank y.kind < rank x.kind) (hb : y.kind ≠ .bitmap) (hd : x.kind ≠ .displaySettings) :
    Counted ((s.setObj i fun x => { x with count := x.count + 1 }).setObj o fun x => { x with uses := [i] }) [] made := by
  have h1 := incr_ok hs hy hb
  have hoi : o ≠ i := by
    intro e
    subst e
    rw [hs.unique hx hy] at hr
    exact Nat.lt_irrefl _ hr
  have hx' := mem_setObj hs (o := i) (fun x => { x with count := x.count + 1 }) hx
  rw [if_neg hoi] at hx'
  have hy' := mem_setObj hs (o := i) (fun x => { x with count := x.count + 1 }) hy
  rw [if_pos rfl] at hy'
  have hpos := hs.pos _ hx
  refine h1.change hx' (fun x => { x with uses := [i] }) [] rfl rfl ?_ (h1.bitmap _ hx').2 hpos (h1.bitmap _ hx').1 (fun u hu => by cases hu) ?_
  · intro u hu'
    rw [List.mem_singleton] at hu'
    subst hu'
    exact ⟨_, hy', hr, hb, fun e => absurd e hd⟩
  · intro u z hz
    dsimp only
    rw [hu]
    simp only [List.count_nil]
    by_cases huo : u = o
    · subst huo
      rw [if_pos rfl, h1.unique hz hx']; omega
    · rw [if_neg huo]; omega

theorem make_ok {s : St} {made : Nat → Nat} (hs : Counted s [] made) {c : Call} (hp : ∀ e, passes e c = 0) (f : Maker) (outNull : Bool) (r : Made) {addr : Nat}
    (ha : addr ≠ 0 ∧ ∀ w ∈ s.wrappers, w.addr ≠ addr) (hout : outNull = false) (hset : f = .displaySettings → r ≠ .null) {o : Nat} {x : Obj} (hx : (o, x) ∈ s.objs)
    (hk : x.kind = f.source) : StepOk made c (make s f outNull r addr (some o)) := by
  unfold make
  dsimp only
  rw [hs.obj?_iff.2 hx]
  dsimp only
  rw [hs.intact_ok 3 o x hx, if_neg (by simp)]
  by_cases hn : f.source = .reader ∧ x.uses = []
  · rw [if_pos hn]; exact stepOk_same hs hp _ _
  · rw [if_neg hn]
    have hfresh : ∀ k, StepOk made c (some ⟨.ok, some addr, s.fresh addr k none⟩) := by
      intro k
      have := hs.fresh_ok addr k none ha
      refine stepOk_of hp ?_ _ _
      have e : (fun e => made e + if (none : Option Nat) = some e then 1 else 0) = made := by funext e; simp
      rw [e] at this; exact this
    cases r with
    | throws => exact stepOk_same hs hp _ _
    | null =>
      dsimp only
      split
      · exact stepOk_same hs hp _ _
      · rw [hout, if_neg (by simp)]; exact stepOk_same hs hp _ _
      · exact absurd rfl (hset rfl)
      · exact stepOk_same hs hp _ _
    | object n =>
      dsimp only
      rw [hout, if_neg (by simp)]
      split
      · -- an accessor
        have hb : x.kind ≠ .bitmap := by rw [hk]; decide
        have h1 := incr_ok hs hx hb
        have hx' := mem_setObj hs (o := o) (fun x => { x with count := x.count + 1 }) hx
        rw [if_pos rfl] at hx'
        refine stepOk_of hp ?_ _ _
        refine h1.extend [(s.next, ⟨.accessor, 1, [o], 0, none⟩)] (s.next + 1) addr .accessor s.next made (by simp) ?_ (Nat.le_succ _) ha ?_ ?_ ?_ ?_ ?_ ?_
        · intro q hq; rw [List.mem_singleton] at hq; rw [hq]; exact ⟨Nat.le_refl _, Nat.lt_succ_self _⟩
        · exact ⟨_, List.mem_append_left _ (List.mem_singleton.2 rfl), rfl⟩
        · intro q hq u hu
          rw [List.mem_singleton] at hq
          rw [hq] at hu ⊢
          rw [List.mem_singleton] at hu
          subst hu
          refine ⟨_, List.mem_append_right _ hx', ?_, hb, fun e => by cases e⟩
          show rank x.kind < 2
          rw [hk]; decide
        · intro q hq
          rw [List.mem_singleton] at hq
          rw [hq]
          have hne : o ≠ s.next := by have := hs.fresh _ hx; dsimp only at this; omega
          simp [hne]
        · intro q hq
          have hlt := h1.fresh q hq
          change q.1 < s.next at hlt
          rw [if_neg (by omega)]
          simp
        · intro q hq; rw [List.mem_singleton] at hq; rw [hq]; simp
        · intro e; simp
      · -- display settings with channels
        refine stepOk_of hp ?_ _ _
        have hch : ∀ q, q ∈ channelObjs (s.next + 1) n ↔ ∃ i < n, q = (s.next + 1 + i, ⟨.channelSettings, 1, [], 0, none⟩) := by
          intro q
          unfold channelObjs
          rw [List.mem_map]
          constructor
          · rintro ⟨i, hi, e⟩; exact ⟨i, List.mem_range.1 hi, e.symm⟩
          · rintro ⟨i, hi, e⟩; exact ⟨i, List.mem_range.2 hi, e.symm⟩
        have hchu : ∀ u, ((channelObjs (s.next + 1) n).map fun r => r.2.uses.count u).sum = 0 := by
          intro u
          rw [List.sum_eq_zero_iff_forall_eq_nat]
          intro m hm
          obtain ⟨q, hq, e⟩ := List.mem_map.1 hm
          obtain ⟨i, _, e'⟩ := (hch q).1 hq
          rw [← e, e']; rfl
        have hkeys : (channelObjs (s.next + 1) n).map (·.1) = (List.range n).map (s.next + 1 + ·) := by
          unfold channelObjs; rw [List.map_map]; rfl
        have hnodup : ((List.range n).map (s.next + 1 + ·)).Nodup := by
          rw [List.Nodup, List.pairwise_map]
          exact List.Pairwise.imp (fun h e => h (Nat.add_left_cancel e)) List.nodup_range
        have := hs.extend ((s.next, ⟨.displaySettings, 1, (List.range n).map (s.next + 1 + ·), 0, none⟩) :: channelObjs (s.next + 1) n) (s.next + 1 + n) addr .displaySettings s.next made
          ?_ ?_ (by omega) ha ?_ ?_ ?_ ?_ ?_ ?_
        · exact this
        · rw [List.map_cons, hkeys, List.nodup_cons]
          refine ⟨?_, hnodup⟩
          intro hm
          obtain ⟨i, _, e⟩ := List.mem_map.1 hm
          omega
        · intro q hq
          rcases List.mem_cons.1 hq with e | hq
          · rw [e]; dsimp only; omega
          · obtain ⟨i, hi, e⟩ := (hch q).1 hq
            rw [e]; dsimp only; omega
        · exact ⟨_, List.mem_append_left _ List.mem_cons_self, rfl⟩
        · intro q hq u hu
          rcases List.mem_cons.1 hq with e | hq
          · rw [e] at hu ⊢
            obtain ⟨i, hi, e'⟩ := List.mem_map.1 hu
            refine ⟨⟨.channelSettings, 1, [], 0, none⟩, List.mem_append_left _ (List.mem_cons_of_mem _ ((hch _).2 ⟨i, List.mem_range.1 hi, by rw [← e']⟩)), (by show 0 < 1; decide), by decide, fun _ => rfl⟩
          · obtain ⟨i, hi, e⟩ := (hch q).1 hq
            rw [e] at hu; cases hu
        · intro q hq
          rw [List.map_cons, List.sum_cons, hchu]
          dsimp only
          rcases List.mem_cons.1 hq with e | hq
          · rw [e]
            have : ((List.range n).map (s.next + 1 + ·)).count s.next = 0 := by
              rw [List.count_eq_zero]
              intro hm
              obtain ⟨i, _, e⟩ := List.mem_map.1 hm
              omega
            dsimp only
            rw [this]; simp
          · obtain ⟨i, hi, e⟩ := (hch q).1 hq
            have : ((List.range n).map (s.next + 1 + ·)).count (s.next + 1 + i) = 1 := by
              rw [hnodup.count, if_pos (List.mem_map.2 ⟨i, List.mem_range.2 hi, rfl⟩)]
            rw [e]
            dsimp only
            rw [this, if_neg (by omega)]; simp
        · intro q hq
          have := hs.fresh q hq
          rw [List.map_cons, List.sum_cons, hchu, if_neg (by omega)]
          dsimp only
          have : ((List.range n).map (s.next + 1 + ·)).count q.1 = 0 := by
            rw [List.count_eq_zero]
            intro hm
            obtain ⟨i, _, e⟩ := List.mem_map.1 hm
            omega
          rw [this]; simp
        · intro q hq
          rcases List.mem_cons.1 hq with e | hq
          · rw [e]; simp
          · obtain ⟨i, hi, e⟩ := (hch q).1 hq
            rw [e]; simp
        · intro e
          have : ((channelObjs (s.next + 1) n).map fun r => if r.2.ext = some e then 1 else 0).sum = 0 := by
            rw [List.sum_eq_zero_iff_forall_eq_nat]
            intro m hm
            obtain ⟨q, hq, e1⟩ := List.mem_map.1 hm
            obtain ⟨i, _, e'⟩ := (hch q).1 hq
            rw [← e1, e']; simp
          rw [List.map_cons, List.sum_cons, this]; simp
      · exact hfresh _

theorem checkAll_ok {s : St} {made : Nat → Nat} (hs : Counted s [] made) {c : Call} (hp : ∀ e, passes e c = 0) {r : Option Res} (hr : StepOk made c r) :
    ∀ bs : List Nat, 0 ∉ bs → (∀ b ∈ bs, b = 0 ∨ ∃ k, LiveHandle s k b) → StepOk made c (checkAll s bs r) := by
  intro bs
  induction bs with
  | nil => intro _ _; exact hr
  | cons b bs ih =>
    intro h0 hb
    unfold checkAll
    rw [List.mem_cons, not_or] at h0
    rw [if_neg (fun e => h0.1 e.symm)]
    refine stepOk_check hs hp (hb b (by simp)) (fun k' _ e => ?_) _ ?_
    · rcases e with ⟨_, e⟩ | ⟨_, e⟩ <;> cases e
    · intro w o x _ _ _ _ hx _
      rw [Option.bind_some, hs.obj?_iff.2 hx, if_neg (by simp)]
      exact ih h0.2 (fun b' hb' => hb b' (by simp [hb']))

/-- Every call of a careful caller is defined and keeps the invariant. -/
theorem step_ok {s : St} {made : Nat → Nat} (hs : Counted s [] made) {c : Call} {addr : Nat} (hc : Careful s c addr) : StepOk made c (step s c addr) := by
  have ha := hc.memory
  cases c with
  | create k ext ok =>
    unfold step
    dsimp only
    cases ok with
    | false => rw [if_neg (by simp)]; exact stepOk_same hs (fun e => by cases ext <;> rfl) _ _
    | true =>
      rw [if_pos rfl]
      refine ⟨_, rfl, ?_⟩
      have := hs.fresh_ok addr k ext ha
      have e : (fun e => made e + if ext = some e then 1 else 0) = fun e => made e + passes e (.create k ext true) := by
        funext e
        cases ext with
        | none => simp [passes]
        | some e' => simp [passes]
      rw [← e]; exact this
  | make f h outNull r =>
    have hp : ∀ e, passes e (.make f h outNull r) = 0 := fun _ => rfl
    have hh := hc.handles (f.source, h) (by simp [expects])
    have hcf := hc.confused (f.source, h) (by simp [expects])
    dsimp only at hh hcf
    have hset : f = .displaySettings → r ≠ .null := by
      intro e1 e2
      exact hc.settings h outNull (by rw [e1, e2])
    unfold step
    dsimp only
    by_cases h1 : f = .readAttachment
    · rw [if_pos h1]
      subst h1
      obtain ⟨g1, g2⟩ := hc.nullAttachment h outNull r rfl
      rw [if_neg g1]
      exact stepOk_check hs hp hh hcf _ (fun w o x _ _ _ _ hx hk => make_ok hs hp _ _ r ha g2 hset hx hk)
    · rw [if_neg h1]
      by_cases h2 : f ≠ .metadataSegment ∧ outNull = true
      · rw [if_pos h2]; exact stepOk_same hs hp _ _
      · rw [if_neg h2]
        have g2 : outNull = false := by
          by_cases h3 : f = .metadataSegment
          · exact hc.nullMetadata h outNull r (by rw [h3])
          · cases outNull with
            | false => rfl
            | true => exact absurd ⟨h3, rfl⟩ h2
        exact stepOk_check hs hp hh hcf _ (fun w o x _ _ _ _ hx hk => make_ok hs hp _ _ r ha g2 hset hx hk)
  | readerOpen r st ok =>
    have hp : ∀ e, passes e (.readerOpen r st ok) = 0 := fun _ => rfl
    unfold step
    dsimp only
    by_cases h0 : st = 0
    · rw [if_pos h0]; exact stepOk_same hs hp _ _
    · rw [if_neg h0]
      refine stepOk_check hs hp (hc.handles (.reader, r) (by simp [expects])) (hc.confused (.reader, r) (by simp [expects])) _ ?_
      intro w o x _ _ _ _ hx hk; dsimp only at hk
      refine stepOk_check hs hp (hc.handles (.stream, st) (by simp [expects])) (hc.confused (.stream, st) (by simp [expects])) _ ?_
      intro w' i y _ _ _ _ hy hk'; dsimp only at hk'
      dsimp only
      rw [hs.obj?_iff.2 hx, hs.obj?_iff.2 hy]
      dsimp only
      by_cases hu : x.uses = []
      · rw [if_neg (by simp [hu])]
        cases ok with
        | false => exact stepOk_same hs hp _ _
        | true => exact stepOk_of hp (install_ok hs hx hy hu (by rw [hk, hk']; decide) (by rw [hk']; decide) (by rw [hk]; decide)) _ _
      · rw [if_pos hu]; exact stepOk_same hs hp _ _
  | writerCreate r st ok =>
    have hp : ∀ e, passes e (.writerCreate r st ok) = 0 := fun _ => rfl
    unfold step
    dsimp only
    by_cases h0 : st = 0
    · rw [if_pos h0]; exact stepOk_same hs hp _ _
    · rw [if_neg h0]
      refine stepOk_check hs hp (hc.handles (.writer, r) (by simp [expects])) (hc.confused (.writer, r) (by simp [expects])) _ ?_
      intro w o x _ _ _ _ hx hk; dsimp only at hk
      refine stepOk_check hs hp (hc.handles (.outputStream, st) (by simp [expects])) (hc.confused (.outputStream, st) (by simp [expects])) _ ?_
      intro w' i y _ _ _ _ hy hk'; dsimp only at hk'
      dsimp only
      rw [hs.obj?_iff.2 hx, hs.obj?_iff.2 hy]
      dsimp only
      by_cases hu : x.uses = []
      · rw [if_neg (by simp [hu])]
        exact stepOk_of hp (install_ok hs hx hy hu (by rw [hk, hk']; decide) (by rw [hk']; decide) (by rw [hk]; decide)) _ _
      · rw [if_pos hu]; exact stepOk_same hs hp _ _
  | writerClose w ok =>
    have hp : ∀ e, passes e (.writerClose w ok) = 0 := fun _ => rfl
    unfold step
    dsimp only
    refine stepOk_check hs hp (hc.handles (.writer, w) (by simp [expects])) (hc.confused (.writer, w) (by simp [expects])) _ ?_
    intro w' o x _ _ _ _ hx hk; dsimp only at hk
    dsimp only
    rw [hs.obj?_iff.2 hx]
    dsimp only
    rw [hs.intact_ok 3 o x hx, if_neg (by simp)]
    by_cases hu : x.uses = []
    · rw [if_pos hu]; exact stepOk_same hs hp _ _
    · rw [if_neg hu]
      cases ok with
      | false => exact stepOk_same hs hp _ _
      | true =>
        rw [if_pos rfl]
        have hb : x.kind ≠ .bitmap := by rw [hk]; decide
        have h1 : Counted (s.setObj o fun x => { x with uses := [] }) x.uses made := by
          refine hs.change hx (fun x => { x with uses := [] }) x.uses rfl rfl (fun u hu => by cases hu) (hs.bitmap _ hx).2 (hs.pos _ hx) (hs.bitmap _ hx).1 ?_ ?_
          · intro u hu
            obtain ⟨y, e1, _, e3, _⟩ := hs.uses _ hx u hu
            exact ⟨y, e1, e3⟩
          · intro u y hy
            dsimp only
            simp only [List.count_nil]
            by_cases huo : u = o
            · subst huo
              rw [if_pos rfl, hs.unique hy hx]; omega
            · rw [if_neg huo]; omega
        obtain ⟨s', e1, e2, _, _⟩ := h1.drop_ok
        rw [e1]
        exact stepOk_of hp e2 _ _
  | channel d i =>
    have hp : ∀ e, passes e (.channel d i) = 0 := fun _ => rfl
    unfold step
    dsimp only
    refine stepOk_check hs hp (hc.handles (.displaySettings, d) (by simp [expects])) (hc.confused (.displaySettings, d) (by simp [expects])) _ ?_
    intro w' o x _ _ _ _ hx hk; dsimp only at hk
    dsimp only
    rw [hs.obj?_iff.2 hx]
    dsimp only
    cases hu : x.uses[i]? with
    | none => exact stepOk_same hs hp _ _
    | some u =>
      dsimp only
      have hmem : u ∈ x.uses := List.mem_of_getElem? hu
      obtain ⟨y, e1, _, e3, e4⟩ := hs.uses _ hx u hmem
      have h1 := incr_ok hs e1 e3
      have hy' := mem_setObj hs (o := u) (fun x => { x with count := x.count + 1 }) e1
      rw [if_pos rfl] at hy'
      refine stepOk_of hp ?_ _ _
      refine h1.extend [] s.next addr .channelSettings u made (by simp) (by simp) (Nat.le_refl _) ha ⟨_, hy', e4 hk⟩ (by simp) (by simp) ?_ (by simp) (by simp)
      intro q _
      rw [List.count_singleton]
      by_cases h : u = q.1
      · simp [h]
      · rw [if_neg (by simpa using h), if_neg h]; simp
  | lock b =>
    have hp : ∀ e, passes e (.lock b) = 0 := fun _ => rfl
    unfold step
    dsimp only
    refine stepOk_check hs hp (hc.handles (.bitmap, b) (by simp [expects])) (hc.confused (.bitmap, b) (by simp [expects])) _ ?_
    intro w' o x _ _ _ _ hx hk; dsimp only at hk
    dsimp only
    rw [hs.obj?_iff.2 hx, if_neg (by simp)]
    refine stepOk_of hp ?_ _ _
    exact hs.change hx (fun x => { x with locks := x.locks + 1 }) [] rfl rfl (hs.uses _ hx) (fun e => absurd hk e) (hs.pos _ hx) (hs.bitmap _ hx).1 (fun u hu => by cases hu)
      (fun u y hy => by
        dsimp only
        by_cases huo : u = o
        · subst huo; rw [if_pos rfl, hs.unique hy hx]
        · rw [if_neg huo])
  | unlock b =>
    have hp : ∀ e, passes e (.unlock b) = 0 := fun _ => rfl
    unfold step
    dsimp only
    refine stepOk_check hs hp (hc.handles (.bitmap, b) (by simp [expects])) (hc.confused (.bitmap, b) (by simp [expects])) _ ?_
    intro w' o x _ _ _ _ hx hk; dsimp only at hk
    dsimp only
    rw [hs.obj?_iff.2 hx]
    dsimp only
    split
    · exact stepOk_same hs hp _ _
    · refine stepOk_of hp ?_ _ _
      exact hs.change hx (fun x => { x with locks := x.locks - 1 }) [] rfl rfl (hs.uses _ hx) (fun e => absurd hk e) (hs.pos _ hx) (hs.bitmap _ hx).1 (fun u hu => by cases hu)
        (fun u y hy => by
          dsimp only
          by_cases huo : u = o
          · subst huo; rw [if_pos rfl, hs.unique hy hx]
          · rw [if_neg huo])
  | compose bs ok =>
    have hp : ∀ e, passes e (.compose bs ok) = 0 := fun _ => rfl
    unfold step
    dsimp only
    by_cases hb : bs = []
    · rw [if_pos hb]; exact stepOk_same hs hp _ _
    · rw [if_neg hb]
      refine checkAll_ok hs hp ?_ bs (hc.nullBitmap bs ok rfl) ?_
      · cases ok with
        | false => exact stepOk_same hs hp _ _
        | true =>
          rw [if_pos rfl]
          refine stepOk_of hp ?_ _ _
          have := hs.fresh_ok addr .bitmap none ha
          have e : (fun e => made e + if (none : Option Nat) = some e then 1 else 0) = made := by funext e; simp
          rw [e] at this; exact this
      · intro b hb'
        exact hc.handles (.bitmap, b) (by simp only [expects, List.mem_map]; exact ⟨b, hb', rfl⟩)
  | use k h =>
    have hp : ∀ e, passes e (.use k h) = 0 := fun _ => rfl
    unfold step
    dsimp only
    refine stepOk_check hs hp (hc.handles (k, h) (by simp [expects])) (hc.confused (k, h) (by simp [expects])) _ ?_
    intro w' o x _ _ _ _ hx hk; dsimp only at hk
    dsimp only
    rw [hs.intact_ok 3 o x hx, if_neg (by simp)]
    exact stepOk_same hs hp _ _
  | release k h =>
    have hp : ∀ e, passes e (.release k h) = 0 := fun _ => rfl
    unfold step
    dsimp only
    refine stepOk_check hs hp (hc.handles (k, h) (by simp [expects])) (hc.confused (k, h) (by simp [expects])) _ ?_
    intro w o x hw e1 e2 ho hx hk; dsimp only at e1 e2 hk
    dsimp only
    rw [hs.obj?_iff.2 hx]
    dsimp only
    by_cases hb : k = .bitmap ∧ x.count = 1 ∧ x.locks ≠ 0
    · rw [if_pos hb]; exact stepOk_same hs hp _ _
    · rw [if_neg hb]
      have hl : x.kind = .bitmap → x.locks = 0 := by
        intro e
        have h1 := (hs.bitmap _ hx).1 e
        by_cases h2 : x.locks = 0
        · exact h2
        · exact absurd ⟨by rw [← hk]; exact e, h1, h2⟩ hb
      have h1 := hs.unwrap hw ho hx hl
      rw [e1] at h1
      obtain ⟨s', g1, g2, _, _⟩ := h1.drop_ok
      rw [g1]
      exact stepOk_of hp g2 _ _

theorem init_counted : Counted St.init [] (fun _ => 0) := by
  refine ⟨?_, ?_, ?_, ?_, ?_, ?_, ?_, ?_, ?_, ?_, ?_⟩ <;> first | exact List.nodup_nil | (intro q hq; cases hq) | (intro e; rfl)

theorem passed_snoc (e : Nat) (cs : List (Call × Nat)) (c : Call) (addr : Nat) : passed e (cs ++ [(c, addr)]) = passed e cs + passes e c := by
  unfold passed
  rw [List.countP_append, List.countP_singleton]
  congr 1
  unfold passes
  dsimp only
  cases c with
  | create k ext ok => cases ext <;> cases ok <;> simp
  | _ => rfl

theorem history_counted {cs : List (Call × Nat)} {s : St} (h : History cs s) : Counted s [] (fun e => passed e cs) := by
  induction h with
  | nil => exact init_counted
  | @call cs s c addr r _ hc he ih =>
    obtain ⟨x, e1, e2⟩ := step_ok ih hc
    rw [he] at e1
    injection e1 with e1
    subst e1
    have : (fun e => passed e (cs ++ [(c, addr)])) = fun e => passed e cs + passes e c := by funext e; exact passed_snoc e _ _ _
    rw [this]; exact e2

end Verif
