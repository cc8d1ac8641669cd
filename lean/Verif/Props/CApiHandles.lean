import Verif.Proof.CApiRun

/-!
# C70: handles of the C API
-/

namespace Verif

open Verif.CApi Verif.Spec

/-- **C70 (no undefined behaviour).** Whatever calls a careful caller has made, the next call with handles that are null or were handed out and not released, of
whatever class, is defined: nothing that was destroyed is accessed, and the program is not terminated. -/
theorem C70_defined {cs : List (Call × Nat)} {s : St} (h : History cs s) {c : Call} {addr : Nat} (hc : Careful s c addr) : ∃ r, step s c addr = some r := by
  obtain ⟨r, e, _⟩ := step_ok (history_counted h) hc
  exact ⟨r, e⟩

/-- **C70 (lifetime).** An object exists iff it is needed by a handle that is not released, directly or through other objects: a reader needs the stream it was opened
with, an accessor needs its reader, a writer needs its stream until it is closed. -/
theorem C70_alive {cs : List (Call × Nat)} {s : St} (h : History cs s) (o : Nat) : (s.obj? o).isSome = true ↔ Held s o := by
  have hs := history_counted h
  constructor
  · intro ho
    obtain ⟨x, hx⟩ := Option.isSome_iff_exists.1 ho
    -- from an object to one that refers to it, at most three times
    have key : ∀ n o x, (o, x) ∈ s.objs → 2 - rank x.kind < n → Held s o := by
      intro n
      induction n with
      | zero => intro o x _ hn; omega
      | succ n ih =>
        intro o x hx hn
        have hc := hs.count _ hx
        have hp := hs.pos _ hx
        dsimp only at hc hp
        rw [List.count_nil] at hc
        unfold refs at hc
        by_cases hw : s.wrappers.countP (fun w => w.obj == some o) = 0
        · have : (s.objs.map fun q => q.2.uses.count o).sum ≠ 0 := by omega
          have : ∃ q ∈ s.objs, o ∈ q.2.uses := by
            refine Classical.byContradiction fun hno => ?_
            apply this
            rw [List.sum_eq_zero_iff_forall_eq_nat]
            intro m hm
            obtain ⟨q, hq, e⟩ := List.mem_map.1 hm
            rw [← e, List.count_eq_zero]
            intro hm'
            exact hno ⟨q, hq, hm'⟩
          obtain ⟨q, hq, hu⟩ := this
          obtain ⟨y, e1, e2, _⟩ := hs.uses q hq o hu
          have hxy := hs.unique e1 hx
          subst hxy
          have hr2 : rank q.2.kind ≤ 2 := by cases q.2.kind <;> decide
          exact Held.member (ih q.1 q.2 hq (by omega)) (hs.obj?_iff.2 hq) hu
        · have : 0 < s.wrappers.countP (fun w => w.obj == some o) := by omega
          obtain ⟨w, hw, e⟩ := List.countP_pos_iff.1 this
          exact Held.handle hw (by simpa using e)
    exact key 3 o x (hs.obj?_iff.1 hx) (by omega)
  · intro hh
    induction hh with
    | handle hw ho =>
      obtain ⟨o', x, e1, e2, _⟩ := hs.wobj _ hw
      rw [ho] at e1
      injection e1 with e1
      rw [e1, hs.obj?_iff.2 e2]; rfl
    | member _ hx hu _ =>
      obtain ⟨y, e, _⟩ := hs.uses _ (hs.obj?_iff.1 hx) _ hu
      rw [hs.obj?_iff.2 e]; rfl

/-- **C70 (streams of the caller).** The close function of a stream passed to the library (under a number of its own) has been called exactly once if the stream is no longer
needed, and not at all as long as it is. -/
theorem C70_closed {cs : List (Call × Nat)} {s : St} (h : History cs s) (e : Nat) (he : passed e cs = 1) :
    (StreamHeld s e → s.closed.count e = 0) ∧ (¬StreamHeld s e → s.closed.count e = 1) := by
  have hs := history_counted h
  have hx := hs.ext e
  rw [he] at hx
  constructor
  · rintro ⟨o, x, _, h1, h2⟩
    have : 0 < exts s e := by
      have hm := hs.obj?_iff.1 h1
      have := sum_filter hs.okeys hm (fun q => if q.2.ext = some e then 1 else 0)
      unfold exts
      dsimp only at this
      rw [if_pos h2] at this
      omega
    omega
  · intro hn
    have : exts s e = 0 := by
      unfold exts
      rw [List.sum_eq_zero_iff_forall_eq_nat]
      intro m hm
      obtain ⟨q, hq, e1⟩ := List.mem_map.1 hm
      rw [← e1, if_neg]
      intro e2
      have ho := (hs.obj?_iff (o := q.1) (x := q.2)).2 hq
      exact hn ⟨q.1, q.2, (C70_alive h q.1).1 (by rw [ho]; rfl), ho, e2⟩
    omega

/-- **C70 (no leak).** After all handles are released nothing is left, and the close function of every stream was called as often as the stream was passed. -/
theorem C70_all_released {cs : List (Call × Nat)} {s : St} (h : History cs s) (hw : s.wrappers = []) : s.objs = [] ∧ ∀ e, s.closed.count e = passed e cs := by
  have hs := history_counted h
  have hn : ∀ o, ¬Held s o := by
    intro o ho
    induction ho with
    | handle h1 _ => rw [hw] at h1; cases h1
    | member _ _ _ ih => exact ih
  have h0 : s.objs = [] := by
    cases ho : s.objs with
    | nil => rfl
    | cons q l =>
      have hq : q ∈ s.objs := by rw [ho]; simp
      exact absurd ((C70_alive h q.1).1 (by rw [(hs.obj?_iff (o := q.1) (x := q.2)).2 hq]; rfl)) (hn _)
  refine ⟨h0, fun e => ?_⟩
  have := hs.ext e
  unfold exts at this
  rw [h0] at this
  simpa using this

theorem confusable_bitmap {k : Kind} : ¬Confusable k .bitmap := by
  rintro (⟨_, e⟩ | ⟨_, e⟩) <;> cases e

/-- **C70 (wrong class).** A call that is given a handle of a class it does not expect is rejected: it reports this and changes nothing. -/
theorem C70_wrong_kind {cs : List (Call × Nat)} {s : St} (h : History cs s) {c : Call} {addr : Nat} (hc : Careful s c addr) {k : Kind} {a : Nat}
    (he : (k, a) ∈ expects c) (ha : a ≠ 0) (hw : ¬LiveHandle s k a) :
    ∃ code, step s c addr = some ⟨code, none, s⟩ ∧ (code = .invalidHandle ∨ code = .invalidArgument) := by
  have hs := history_counted h
  have one : ∀ next, check s k a next = some ⟨.invalidHandle, none, s⟩ := by
    intro next
    rcases check_cases hs (hc.handles _ he) (hc.confused _ he) next with ⟨e, _⟩ | ⟨_, _, e⟩ | ⟨w, o, x, h1, h2, h3, _⟩
    · exact absurd e ha
    · exact e
    · exact absurd ⟨w, h1, h2, h3⟩ hw
  cases c with
  | create k' ext ok => cases he
  | make f h' out r =>
    simp only [expects, List.mem_singleton, Prod.mk.injEq] at he
    obtain ⟨rfl, rfl⟩ := he
    unfold step
    dsimp only
    split
    · rename_i h1
      subst h1
      exact ⟨_, one _, Or.inl rfl⟩
    · split
      · exact ⟨_, rfl, Or.inr rfl⟩
      · exact ⟨_, one _, Or.inl rfl⟩
  | readerOpen r st ok =>
    simp only [expects, List.mem_cons, Prod.mk.injEq, List.not_mem_nil, or_false] at he
    unfold step
    dsimp only
    split
    · exact ⟨_, rfl, Or.inr rfl⟩
    · rcases he with ⟨rfl, rfl⟩ | ⟨rfl, rfl⟩
      · exact ⟨_, one _, Or.inl rfl⟩
      · rcases check_cases hs (hc.handles (.reader, r) (by simp [expects])) (hc.confused (.reader, r) (by simp [expects])) _ with ⟨_, e⟩ | ⟨_, _, e⟩ | ⟨w, o, x, _, _, _, _, _, _, _, e⟩
        · exact ⟨_, e, Or.inr rfl⟩
        · exact ⟨_, e, Or.inl rfl⟩
        · exact ⟨_, e.trans (one _), Or.inl rfl⟩
  | writerCreate r st ok =>
    simp only [expects, List.mem_cons, Prod.mk.injEq, List.not_mem_nil, or_false] at he
    unfold step
    dsimp only
    split
    · exact ⟨_, rfl, Or.inr rfl⟩
    · rcases he with ⟨rfl, rfl⟩ | ⟨rfl, rfl⟩
      · exact ⟨_, one _, Or.inl rfl⟩
      · rcases check_cases hs (hc.handles (.writer, r) (by simp [expects])) (hc.confused (.writer, r) (by simp [expects])) _ with ⟨_, e⟩ | ⟨_, _, e⟩ | ⟨w, o, x, _, _, _, _, _, _, _, e⟩
        · exact ⟨_, e, Or.inr rfl⟩
        · exact ⟨_, e, Or.inl rfl⟩
        · exact ⟨_, e.trans (one _), Or.inl rfl⟩
  | compose bs ok =>
    have h0 := hc.nullBitmap bs ok rfl
    have hh : ∀ b ∈ bs, b = 0 ∨ ∃ k, LiveHandle s k b := fun b hb => hc.handles (.bitmap, b) (by simp only [expects, List.mem_map]; exact ⟨b, hb, rfl⟩)
    simp only [expects, List.mem_map, Prod.mk.injEq] at he
    obtain ⟨b, hb, rfl, rfl⟩ := he
    unfold step
    dsimp only
    rw [if_neg (by intro e; rw [e] at hb; cases hb)]
    generalize (if ok = true then some (Res.mk Code.ok (some addr) (s.fresh addr .bitmap none)) else some ⟨.unspecified, none, s⟩) = r
    clear hc
    refine ⟨.invalidHandle, ?_, Or.inl rfl⟩
    induction bs with
    | nil => cases hb
    | cons b' bs ih =>
      unfold checkAll
      rw [List.mem_cons, not_or] at h0
      rw [if_neg (fun e => h0.1 e.symm)]
      by_cases hbb : b' = b
      · rw [hbb]; exact one _
      · rcases check_cases hs (hh b' (by simp)) (fun k' _ => confusable_bitmap) (fun o => if (o.bind s.obj?).isNone then none else checkAll s bs r) with ⟨e, _⟩ | ⟨_, _, e⟩ | ⟨w, o, x, _, _, _, _, hx, _, _, e⟩
        · exact absurd e.symm h0.1
        · exact e
        · rw [e, Option.bind_some, hs.obj?_iff.2 hx, if_neg (by simp)]
          rcases List.mem_cons.1 hb with e' | e'
          · exact absurd e'.symm hbb
          · exact ih h0.2 (fun b'' hb'' => hh b'' (by simp [hb''])) e'
  | writerClose w ok =>
    simp only [expects, List.mem_singleton, Prod.mk.injEq] at he
    obtain ⟨rfl, rfl⟩ := he
    unfold step
    exact ⟨_, one _, Or.inl rfl⟩
  | channel d i =>
    simp only [expects, List.mem_singleton, Prod.mk.injEq] at he
    obtain ⟨rfl, rfl⟩ := he
    unfold step
    exact ⟨_, one _, Or.inl rfl⟩
  | lock b =>
    simp only [expects, List.mem_singleton, Prod.mk.injEq] at he
    obtain ⟨rfl, rfl⟩ := he
    unfold step
    exact ⟨_, one _, Or.inl rfl⟩
  | unlock b =>
    simp only [expects, List.mem_singleton, Prod.mk.injEq] at he
    obtain ⟨rfl, rfl⟩ := he
    unfold step
    exact ⟨_, one _, Or.inl rfl⟩
  | use k' h' =>
    simp only [expects, List.mem_singleton, Prod.mk.injEq] at he
    obtain ⟨rfl, rfl⟩ := he
    unfold step
    exact ⟨_, one _, Or.inl rfl⟩
  | release k' h' =>
    simp only [expects, List.mem_singleton, Prod.mk.injEq] at he
    obtain ⟨rfl, rfl⟩ := he
    unfold step
    exact ⟨_, one _, Or.inl rfl⟩

/-- A call that is given handles of the classes it expects does not report an invalid handle. -/
theorem C70_right_kind {cs : List (Call × Nat)} {s : St} (h : History cs s) {c : Call} {addr : Nat} (hc : Careful s c addr)
    (he : ∀ e ∈ expects c, LiveHandle s e.1 e.2) {r : Res} (hr : step s c addr = some r) : r.code ≠ .invalidHandle := by
  have hs := history_counted h
  -- the checks succeed
  have one : ∀ k a, (k, a) ∈ expects c → ∀ next, ∃ o x, (o, x) ∈ s.objs ∧ check s k a next = next (some o) := by
    intro k a he' next
    obtain ⟨w, h1, h2, h3⟩ := he _ he'
    rcases check_cases hs (hc.handles _ he') (hc.confused _ he') next with ⟨e, _⟩ | ⟨_, e, _⟩ | ⟨w, o, x, _, _, _, _, h4, _, _, e⟩
    · exact absurd (h2.trans e) (hs.nonnull w h1)
    · exact absurd ⟨w, h1, h2, h3⟩ e
    · exact ⟨o, x, h4, e⟩
  have hmake : ∀ f out m o, make s f out m addr o = some r → r.code ≠ .invalidHandle := by
    intro f out m o hm
    unfold make at hm
    split at hm
    · cases hm
    split at hm
    · cases hm
    split at hm
    · cases hm
    split at hm
    · cases hm; exact nofun
    split at hm
    · cases hm; exact nofun
    · split at hm
      · cases hm; exact nofun
      · split at hm
        · cases hm
        · cases hm; exact nofun
      · cases hm; exact nofun
      · cases hm; exact nofun
    · split at hm
      · cases hm
      split at hm <;> cases hm <;> exact nofun
  cases c with
  | create k ext ok =>
    unfold step at hr
    try dsimp only at hr
    split at hr <;> cases hr <;> exact nofun
  | make f a out m =>
    unfold step at hr
    try dsimp only at hr
    split at hr
    · rename_i h1
      subst h1
      split at hr
      · split at hr
        · cases hr; exact nofun
        · cases hr
      · obtain ⟨o, x, _, e⟩ := one .reader a (by simp [expects, Maker.source]) (make s .readAttachment out m addr)
        rw [e] at hr
        exact hmake _ _ _ _ hr
    · split at hr
      · cases hr; exact nofun
      · obtain ⟨o, x, _, e⟩ := one f.source a (by simp [expects]) (make s f out m addr)
        rw [e] at hr
        exact hmake _ _ _ _ hr
  | readerOpen a b ok =>
    unfold step at hr
    try dsimp only at hr
    split at hr
    · cases hr; exact nofun
    · obtain ⟨o, x, hx, e⟩ := one .reader a (by simp [expects]) _
      rw [e] at hr
      try dsimp only at hr
      obtain ⟨i, y, hy, e⟩ := one .stream b (by simp [expects]) _
      rw [e] at hr
      try dsimp only at hr
      rw [hs.obj?_iff.2 hx, hs.obj?_iff.2 hy] at hr
      try dsimp only at hr
      split at hr
      · cases hr; exact nofun
      · split at hr <;> cases hr <;> exact nofun
  | writerCreate a b ok =>
    unfold step at hr
    try dsimp only at hr
    split at hr
    · cases hr; exact nofun
    · obtain ⟨o, x, hx, e⟩ := one .writer a (by simp [expects]) _
      rw [e] at hr
      try dsimp only at hr
      obtain ⟨i, y, hy, e⟩ := one .outputStream b (by simp [expects]) _
      rw [e] at hr
      try dsimp only at hr
      rw [hs.obj?_iff.2 hx, hs.obj?_iff.2 hy] at hr
      try dsimp only at hr
      split at hr
      · cases hr; exact nofun
      · cases hr
        cases ok <;> exact nofun
  | writerClose a ok =>
    unfold step at hr
    try dsimp only at hr
    obtain ⟨o, x, hx, e⟩ := one .writer a (by simp [expects]) _
    rw [e] at hr
    try dsimp only at hr
    rw [hs.obj?_iff.2 hx] at hr
    try dsimp only at hr
    split at hr
    · cases hr
    split at hr
    · cases hr; exact nofun
    split at hr
    · obtain ⟨t, _, e⟩ := Option.map_eq_some_iff.1 hr
      rw [← e]
      exact nofun
    · cases hr; exact nofun
  | channel a i =>
    unfold step at hr
    try dsimp only at hr
    obtain ⟨o, x, hx, e⟩ := one .displaySettings a (by simp [expects]) _
    rw [e] at hr
    try dsimp only at hr
    rw [hs.obj?_iff.2 hx] at hr
    try dsimp only at hr
    split at hr <;> cases hr <;> exact nofun
  | lock a =>
    unfold step at hr
    try dsimp only at hr
    obtain ⟨o, x, hx, e⟩ := one .bitmap a (by simp [expects]) _
    rw [e] at hr
    try dsimp only at hr
    split at hr
    · cases hr
    · cases hr; exact nofun
  | unlock a =>
    unfold step at hr
    try dsimp only at hr
    obtain ⟨o, x, hx, e⟩ := one .bitmap a (by simp [expects]) _
    rw [e] at hr
    try dsimp only at hr
    rw [hs.obj?_iff.2 hx] at hr
    try dsimp only at hr
    split at hr <;> cases hr <;> exact nofun
  | compose bs ok =>
    unfold step at hr
    try dsimp only at hr
    split at hr
    · cases hr; exact nofun
    · have key : ∀ bs' : List Nat, (∀ b ∈ bs', b ∈ bs) → ∀ q : Option Res, (∀ t, q = some t → t.code ≠ .invalidHandle) → checkAll s bs' q = some r → r.code ≠ .invalidHandle := by
        intro bs'
        induction bs' with
        | nil => intro _ q hq hr; exact hq _ hr
        | cons b bs' ih =>
          intro hb q hq hr
          unfold checkAll at hr
          split at hr
          · cases hr
          · obtain ⟨o, x, hx, e⟩ := one .bitmap b (by simp only [expects, List.mem_map]; exact ⟨b, hb b (by simp), rfl⟩) _
            rw [e] at hr
            try dsimp only at hr
            split at hr
            · cases hr
            · exact ih (fun b' hb' => hb b' (by simp [hb'])) q hq hr
      refine key bs (fun _ hb => hb) _ ?_ hr
      intro t ht
      split at ht <;> cases ht <;> exact nofun
  | use k a =>
    unfold step at hr
    try dsimp only at hr
    obtain ⟨o, x, hx, e⟩ := one k a (by simp [expects]) _
    rw [e] at hr
    try dsimp only at hr
    split at hr
    · cases hr
    · cases hr; exact nofun
  | release k a =>
    unfold step at hr
    try dsimp only at hr
    obtain ⟨o, x, hx, e⟩ := one k a (by simp [expects]) _
    rw [e] at hr
    try dsimp only at hr
    rw [hs.obj?_iff.2 hx] at hr
    try dsimp only at hr
    split at hr
    · cases hr; exact nofun
    · obtain ⟨t, _, e⟩ := Option.map_eq_some_iff.1 hr
      rw [← e]
      exact nofun

/-- Objects going away do not affect the handles. -/
theorem drops_wrappers : ∀ (n : Nat) (p : List Nat) (s t : St), drops n p s = some t → t.wrappers = s.wrappers := by
  intro n
  induction n with
  | zero =>
    intro p s t h
    cases p with
    | nil => unfold drops at h; cases h; rfl
    | cons o p => unfold drops at h; cases h
  | succ n ih =>
    intro p s t h
    cases p with
    | nil => unfold drops at h; cases h; rfl
    | cons o p =>
      unfold drops at h
      split at h
      · cases h
      · split at h
        · split at h
          · cases h
          · exact (ih _ _ _ h).trans rfl
        · exact (ih _ _ _ h).trans rfl

theorem make_wrappers {s : St} {f : Maker} {out : Bool} {m : Made} {addr : Nat} {o : Option Nat} {r : Res} (h : make s f out m addr o = some r) :
    ((r.out = none ∨ r.out = some 0) ∧ r.st.wrappers = s.wrappers) ∨ (r.out = some addr ∧ ∃ o', r.st.wrappers = ⟨addr, f.target, o'⟩ :: s.wrappers) := by
  unfold make at h
  split at h
  · cases h
  split at h
  · cases h
  split at h
  · cases h
  split at h
  · cases h; exact Or.inl ⟨Or.inl rfl, rfl⟩
  split at h
  · cases h; exact Or.inl ⟨Or.inl rfl, rfl⟩
  · split at h
    · cases h; exact Or.inl ⟨Or.inr rfl, rfl⟩
    · split at h
      · cases h
      · cases h; exact Or.inl ⟨Or.inr rfl, rfl⟩
    · cases h; exact Or.inr ⟨rfl, _, rfl⟩
    · cases h; exact Or.inl ⟨Or.inl rfl, rfl⟩
  · split at h
    · cases h
    split at h <;> cases h <;> exact Or.inr ⟨rfl, _, rfl⟩

/-- What `checkAll` gives is an error or what comes afterwards. -/
theorem checkAll_cases {s : St} {q : Option Res} {r : Res} : ∀ {bs : List Nat}, checkAll s bs q = some r → (∃ code, r = ⟨code, none, s⟩) ∨ q = some r := by
  intro bs
  induction bs with
  | nil => intro h; exact Or.inr h
  | cons b bs ih =>
    intro h
    unfold checkAll at h
    split at h
    · cases h
    · unfold check at h
      split at h
      · cases h; exact Or.inl ⟨_, rfl⟩
      · split at h
        · cases h
        · split at h
          · cases h; exact Or.inl ⟨_, rfl⟩
          · split at h
            · cases h
            · dsimp only at h
              split at h
              · cases h
              · exact ih h

/-- What `check` gives is an error or what comes afterwards. -/
theorem check_or {s : St} {k : Kind} {a : Nat} {next : Option Nat → Option Res} {r : Res} (h : check s k a next = some r) :
    (∃ code, r = ⟨code, none, s⟩) ∨ ∃ o, next o = some r := by
  unfold check at h
  split at h
  · cases h; exact Or.inl ⟨_, rfl⟩
  · split at h
    · cases h
    · split at h
      · cases h; exact Or.inl ⟨_, rfl⟩
      · split at h
        · cases h
        · exact Or.inr ⟨_, h⟩

/-- The handles after a call that is not a release. -/
theorem step_wrappers {s : St} {c : Call} {addr : Nat} {r : Res} (h : step s c addr = some r) (hc : ∀ k a, c ≠ .release k a) :
    ((r.out = none ∨ r.out = some 0) ∧ r.st.wrappers = s.wrappers) ∨ (r.out = some addr ∧ ∃ k o, returns c = some k ∧ r.st.wrappers = ⟨addr, k, o⟩ :: s.wrappers) := by
  have same : ∀ {code : Code} {r : Res}, r = ⟨code, none, s⟩ → ((r.out = none ∨ r.out = some 0) ∧ r.st.wrappers = s.wrappers) ∨ (r.out = some addr ∧ ∃ k o, returns c = some k ∧ r.st.wrappers = ⟨addr, k, o⟩ :: s.wrappers) := by
    intro code r e
    subst e
    exact Or.inl ⟨Or.inl rfl, rfl⟩
  cases c with
  | create k ext ok =>
    unfold step at h
    dsimp only at h
    split at h
    · cases h; exact Or.inr ⟨rfl, _, _, rfl, rfl⟩
    · cases h; exact Or.inl ⟨Or.inr rfl, rfl⟩
  | make f a out m =>
    have key : ∀ {o}, make s f out m addr o = some r → ((r.out = none ∨ r.out = some 0) ∧ r.st.wrappers = s.wrappers) ∨ (r.out = some addr ∧ ∃ k o, returns (.make f a out m) = some k ∧ r.st.wrappers = ⟨addr, k, o⟩ :: s.wrappers) := by
      intro o hm
      rcases make_wrappers hm with h1 | ⟨h1, o', h2⟩
      · exact Or.inl h1
      · exact Or.inr ⟨h1, _, o', rfl, h2⟩
    unfold step at h
    dsimp only at h
    split at h
    · split at h
      · split at h
        · cases h; exact same rfl
        · cases h
      · rcases check_or h with ⟨_, e⟩ | ⟨o, e⟩
        · exact same e
        · exact key e
    · split at h
      · cases h; exact same rfl
      · rcases check_or h with ⟨_, e⟩ | ⟨o, e⟩
        · exact same e
        · exact key e
  | readerOpen a b ok =>
    unfold step at h
    dsimp only at h
    split at h
    · cases h; exact same rfl
    · rcases check_or h with ⟨_, e⟩ | ⟨o, h⟩
      · exact same e
      rcases check_or h with ⟨_, e⟩ | ⟨i, h⟩
      · exact same e
      split at h
      · split at h
        · split at h
          · cases h; exact same rfl
          · split at h
            · cases h; exact Or.inl ⟨Or.inl rfl, rfl⟩
            · cases h; exact same rfl
        · cases h
      · cases h
  | writerCreate a b ok =>
    unfold step at h
    dsimp only at h
    split at h
    · cases h; exact same rfl
    · rcases check_or h with ⟨_, e⟩ | ⟨o, h⟩
      · exact same e
      rcases check_or h with ⟨_, e⟩ | ⟨i, h⟩
      · exact same e
      split at h
      · split at h
        · split at h
          · cases h; exact same rfl
          · cases h; exact Or.inl ⟨Or.inl rfl, rfl⟩
        · cases h
      · cases h
  | writerClose a ok =>
    unfold step at h
    dsimp only at h
    rcases check_or h with ⟨_, e⟩ | ⟨o, h⟩
    · exact same e
    split at h
    · cases h
    split at h
    · cases h
    split at h
    · cases h
    split at h
    · cases h; exact same rfl
    split at h
    · obtain ⟨t, h1, e⟩ := Option.map_eq_some_iff.1 h
      rw [← e]
      exact Or.inl ⟨Or.inl rfl, (drops_wrappers _ _ _ _ h1).trans rfl⟩
    · cases h; exact same rfl
  | channel a i =>
    unfold step at h
    dsimp only at h
    rcases check_or h with ⟨_, e⟩ | ⟨o, h⟩
    · exact same e
    split at h
    · cases h
    split at h
    · cases h
    split at h
    · cases h; exact same rfl
    · cases h; exact Or.inr ⟨rfl, _, _, rfl, rfl⟩
  | lock a =>
    unfold step at h
    dsimp only at h
    rcases check_or h with ⟨_, e⟩ | ⟨o, h⟩
    · exact same e
    split at h
    · cases h
    split at h
    · cases h
    · cases h; exact Or.inl ⟨Or.inl rfl, rfl⟩
  | unlock a =>
    unfold step at h
    dsimp only at h
    rcases check_or h with ⟨_, e⟩ | ⟨o, h⟩
    · exact same e
    split at h
    · cases h
    split at h
    · cases h
    split at h
    · cases h; exact same rfl
    · cases h; exact Or.inl ⟨Or.inl rfl, rfl⟩
  | compose bs ok =>
    unfold step at h
    dsimp only at h
    split at h
    · cases h; exact same rfl
    · rcases checkAll_cases h with ⟨_, e⟩ | h
      · exact same e
      · split at h
        · cases h; exact Or.inr ⟨rfl, _, _, rfl, rfl⟩
        · cases h; exact same rfl
  | use k a =>
    unfold step at h
    dsimp only at h
    rcases check_or h with ⟨_, e⟩ | ⟨o, h⟩
    · exact same e
    split at h
    · cases h
    split at h
    · cases h
    · cases h; exact same rfl
  | release k a => exact absurd rfl (hc k a)

/-- **C70 (new handles).** A call that is not a release leaves all handles as they are; if it returns a handle that is not null then this is a new one, of the class this
function returns, and it is valid. If it returns none then no handle is new. -/
theorem C70_new_handle {cs : List (Call × Nat)} {s : St} (h : History cs s) {c : Call} {addr : Nat} (hc : Careful s c addr) {r : Res} (hr : step s c addr = some r)
    (hn : ∀ k a, c ≠ .release k a) (k : Kind) (a : Nat) :
    LiveHandle r.st k a ↔ LiveHandle s k a ∨ (a ≠ 0 ∧ r.out = some a ∧ returns c = some k ∧ ∀ k', ¬LiveHandle s k' a) := by
  rcases step_wrappers hr hn with ⟨h1, h2⟩ | ⟨h1, k1, o1, h2, h3⟩
  · unfold LiveHandle
    rw [h2]
    constructor
    · intro h3; exact Or.inl h3
    · rintro (h3 | ⟨h3, h4, _⟩)
      · exact h3
      · rcases h1 with h1 | h1
        · rw [h1] at h4; cases h4
        · rw [h1] at h4
          injection h4 with h4
          exact absurd h4.symm h3
  · constructor
    · rintro ⟨w, hw, e1, e2⟩
      rw [h3] at hw
      rcases List.mem_cons.1 hw with e | hw
      · subst e
        dsimp only at e1 e2
        subst e1 e2
        refine Or.inr ⟨hc.memory.1, h1, h2, ?_⟩
        rintro k' ⟨w', hw', e, _⟩
        exact hc.memory.2 w' hw' e
      · exact Or.inl ⟨w, hw, e1, e2⟩
    · rintro (⟨w, hw, e1, e2⟩ | ⟨_, h4, h5, _⟩)
      · exact ⟨w, by rw [h3]; exact List.mem_cons_of_mem _ hw, e1, e2⟩
      · rw [h1] at h4
        injection h4 with h4
        rw [h2] at h5
        injection h5 with h5
        exact ⟨⟨addr, k1, o1⟩, by rw [h3]; exact List.mem_cons_self, h4, h5⟩

theorem lockCount_eq {s : St} {p : List Nat} {made : Nat → Nat} (hs : Counted s p made) {w : Wrapper} {o : Nat} {x : Obj} (hw : w ∈ s.wrappers) (ho : w.obj = some o)
    (hx : (o, x) ∈ s.objs) : lockCount s w.addr = x.locks := by
  unfold lockCount
  rw [hs.wrapper?_iff.2 ⟨hw, rfl⟩, Option.bind_some, ho, Option.bind_some, hs.obj?_iff.2 hx]
  rfl

/-- **C70 (release).** Releasing a valid handle succeeds and invalidates this handle and no other one; but a bitmap that is locked is not released, and this is reported. -/
theorem C70_release {cs : List (Call × Nat)} {s : St} (h : History cs s) {k : Kind} {a addr : Nat} (hc : Careful s (.release k a) addr) (hl : LiveHandle s k a) :
    ∃ r, step s (.release k a) addr = some r ∧ r.out = none ∧
      (k = .bitmap ∧ lockCount s a ≠ 0 → r.code = .lockViolated ∧ r.st = s) ∧
      (¬(k = .bitmap ∧ lockCount s a ≠ 0) → r.code = .ok ∧ ∀ k' a', LiveHandle r.st k' a' ↔ LiveHandle s k' a' ∧ a' ≠ a) := by
  have hs := history_counted h
  obtain ⟨r, hr⟩ := C70_defined h hc
  refine ⟨r, hr, ?_⟩
  unfold step at hr
  dsimp only at hr
  rcases check_cases hs (hc.handles (k, a) (by simp [expects])) (hc.confused (k, a) (by simp [expects])) _ with ⟨e, _⟩ | ⟨_, e, _⟩ | ⟨w, o, x, h1, h2, h3, h4, h5, h6, _, e⟩
  · obtain ⟨w, hw, e1, _⟩ := hl
    exact absurd (e1.trans e) (hs.nonnull w hw)
  · exact absurd hl e
  · rw [e] at hr
    dsimp only at hr
    rw [hs.obj?_iff.2 h5] at hr
    dsimp only at hr
    have hlc := lockCount_eq hs h1 h4 h5
    rw [h2] at hlc
    rw [hlc]
    split at hr
    · rename_i hk
      cases hr
      exact ⟨rfl, fun _ => ⟨rfl, rfl⟩, fun hn => absurd ⟨hk.1, hk.2.2⟩ hn⟩
    · rename_i hk
      obtain ⟨t, h7, e⟩ := Option.map_eq_some_iff.1 hr
      subst e
      refine ⟨rfl, fun hb => ?_, fun _ => ⟨rfl, fun k' a' => ?_⟩⟩
      · exact absurd ⟨hb.1, (hs.bitmap (o, x) h5).1 (h6.trans hb.1), hb.2⟩ hk
      · have hw := drops_wrappers _ _ _ _ h7
        unfold LiveHandle
        dsimp only at hw ⊢
        rw [hw]
        constructor
        · rintro ⟨w', hw', e1, e2⟩
          obtain ⟨m1, m2⟩ := List.mem_filter.1 hw'
          refine ⟨⟨w', m1, e1, e2⟩, ?_⟩
          rw [← e1]
          simpa using m2
        · rintro ⟨⟨w', hw', e1, e2⟩, hne⟩
          refine ⟨w', List.mem_filter.2 ⟨hw', ?_⟩, e1, e2⟩
          rw [← e1] at hne
          simpa using hne

/-- A bitmap has one handle. -/
theorem bitmap_one_handle {s : St} {made : Nat → Nat} (hs : Counted s [] made) {w w' : Wrapper} (hw : w ∈ s.wrappers) (hw' : w' ∈ s.wrappers) {o : Nat} {x : Obj}
    (ho : w.obj = some o) (ho' : w'.obj = some o) (hx : (o, x) ∈ s.objs) (hb : x.kind = .bitmap) : w = w' := by
  have h1 := hs.count _ hx
  have h2 := (hs.bitmap _ hx).1 hb
  dsimp only at h1 h2
  rw [List.count_nil, h2] at h1
  unfold refs at h1
  have h3 : s.wrappers.countP (fun w => w.obj == some o) ≤ 1 := by omega
  rw [List.countP_eq_length_filter] at h3
  have m1 : w ∈ s.wrappers.filter (fun w => w.obj == some o) := List.mem_filter.2 ⟨hw, by simpa using ho⟩
  have m2 : w' ∈ s.wrappers.filter (fun w => w.obj == some o) := List.mem_filter.2 ⟨hw', by simpa using ho'⟩
  generalize s.wrappers.filter (fun w => w.obj == some o) = l at h3 m1 m2
  cases l with
  | nil => cases m1
  | cons a l =>
    cases l with
    | nil =>
      rw [List.mem_singleton] at m1 m2
      rw [m1, m2]
    | cons b l => simp only [List.length_cons] at h3; omega

/-- Changing the lock count of the object of one bitmap handle. -/
theorem lockCount_set {s : St} {made : Nat → Nat} (hs : Counted s [] made) {w : Wrapper} {o : Nat} {x : Obj} (hw : w ∈ s.wrappers) (ho : w.obj = some o) (hx : (o, x) ∈ s.objs)
    (hb : x.kind = .bitmap) (f : Obj → Obj) {made' : Nat → Nat} (hs' : Counted (s.setObj o f) [] made') :
    lockCount (s.setObj o f) w.addr = (f x).locks ∧ ∀ a, a ≠ w.addr → LiveHandle s .bitmap a → lockCount (s.setObj o f) a = lockCount s a := by
  have hm := mem_setObj hs f (o := o) hx
  rw [if_pos rfl] at hm
  refine ⟨lockCount_eq hs' (w := w) hw ho hm, ?_⟩
  rintro a ha ⟨w', hw', rfl, _⟩
  obtain ⟨o', y, e1, e2, _⟩ := hs.wobj w' hw'
  have hne : o' ≠ o := by
    intro e
    subst e
    exact ha (congrArg (·.addr) (bitmap_one_handle hs hw hw' ho e1 hx hb)).symm
  have hm' := mem_setObj hs f (o := o) e2
  rw [if_neg hne] at hm'
  rw [lockCount_eq hs' (w := w') hw' e1 hm', lockCount_eq hs hw' e1 e2]

/-- **C70 (locking).** Locking a bitmap counts, for this bitmap and no other one. -/
theorem C70_lock {cs : List (Call × Nat)} {s : St} (h : History cs s) {b addr : Nat} (hc : Careful s (.lock b) addr) (hl : LiveHandle s .bitmap b) :
    ∃ r, step s (.lock b) addr = some r ∧ r.code = .ok ∧ lockCount r.st b = lockCount s b + 1 ∧
      ∀ b', b' ≠ b → LiveHandle s .bitmap b' → lockCount r.st b' = lockCount s b' := by
  have hs := history_counted h
  obtain ⟨r, hr, hcr⟩ := step_ok hs hc
  refine ⟨r, hr, ?_⟩
  unfold step at hr
  dsimp only at hr
  rcases check_cases hs (hc.handles (.bitmap, b) (by simp [expects])) (hc.confused (.bitmap, b) (by simp [expects])) _ with ⟨e, _⟩ | ⟨_, e, _⟩ | ⟨w, o, x, h1, h2, h3, h4, h5, h6, _, e⟩
  · obtain ⟨w, hw, e1, _⟩ := hl
    exact absurd (e1.trans e) (hs.nonnull w hw)
  · exact absurd hl e
  · rw [e] at hr
    dsimp only at hr
    rw [hs.obj?_iff.2 h5, if_neg (by simp)] at hr
    cases hr
    obtain ⟨k1, k2⟩ := lockCount_set hs h1 h4 h5 h6 (fun x => { x with locks := x.locks + 1 }) hcr
    rw [h2] at k1 k2
    have := lockCount_eq hs h1 h4 h5
    rw [h2] at this
    refine ⟨rfl, ?_, k2⟩
    rw [k1, this]

/-- **C70 (unlocking).** Unlocking takes back one lock of this bitmap and no other one; unlocking a bitmap that is not locked is reported and changes nothing. -/
theorem C70_unlock {cs : List (Call × Nat)} {s : St} (h : History cs s) {b addr : Nat} (hc : Careful s (.unlock b) addr) (hl : LiveHandle s .bitmap b) :
    ∃ r, step s (.unlock b) addr = some r ∧ (lockCount s b = 0 → r.code = .lockViolated ∧ r.st = s) ∧
      (lockCount s b ≠ 0 → r.code = .ok ∧ lockCount r.st b + 1 = lockCount s b ∧
        ∀ b', b' ≠ b → LiveHandle s .bitmap b' → lockCount r.st b' = lockCount s b') := by
  have hs := history_counted h
  obtain ⟨r, hr, hcr⟩ := step_ok hs hc
  refine ⟨r, hr, ?_⟩
  unfold step at hr
  dsimp only at hr
  rcases check_cases hs (hc.handles (.bitmap, b) (by simp [expects])) (hc.confused (.bitmap, b) (by simp [expects])) _ with ⟨e, _⟩ | ⟨_, e, _⟩ | ⟨w, o, x, h1, h2, h3, h4, h5, h6, _, e⟩
  · obtain ⟨w, hw, e1, _⟩ := hl
    exact absurd (e1.trans e) (hs.nonnull w hw)
  · exact absurd hl e
  · rw [e] at hr
    dsimp only at hr
    rw [hs.obj?_iff.2 h5] at hr
    dsimp only at hr
    have this := lockCount_eq hs h1 h4 h5
    rw [h2] at this
    rw [this]
    split at hr
    · cases hr
      exact ⟨fun _ => ⟨rfl, rfl⟩, fun hn => absurd hn (by omega)⟩
    · cases hr
      obtain ⟨k1, k2⟩ := lockCount_set hs h1 h4 h5 h6 (fun x => { x with locks := x.locks - 1 }) hcr
      rw [h2] at k1 k2
      refine ⟨fun hn => absurd hn (by omega), fun _ => ⟨rfl, ?_, k2⟩⟩
      rw [k1]
      dsimp only
      omega

/-! ### What is not checked -/

/-- **C70 (violated: attachments and document information).** The handle of an attachment passes for that of document information and the other way round: using or releasing it as
such, or asking it for display settings, is undefined. -/
theorem C70_confused_violated {cs : List (Call × Nat)} {s : St} (h : History cs s) {k k' : Kind} {a : Nat} (hl : LiveHandle s k a) (hk : Confusable k k') (addr : Nat) :
    step s (.use k' a) addr = none ∧ step s (.release k' a) addr = none ∧ (k' = .documentInfo → ∀ r, step s (.make .displaySettings a false r) addr = none) := by
  have hs := history_counted h
  have key : ∀ next, check s k' a next = none := by
    intro next
    obtain ⟨w, hw, rfl, rfl⟩ := hl
    unfold check
    rw [if_neg (hs.nonnull w hw), hs.wrapper?_iff.2 ⟨hw, rfl⟩]
    dsimp only
    rcases hk with ⟨e1, e2⟩ | ⟨e1, e2⟩ <;> rw [e1, e2] <;> rfl
  refine ⟨?_, ?_, ?_⟩
  · unfold step; exact key _
  · unfold step; exact key _
  · intro e r
    unfold step
    dsimp only
    rw [if_neg (by decide), if_neg (by simp)]
    subst e
    exact key _

/-- **C70 (violated: null handles).** A null handle given to the function that reads an attachment, or among the bitmaps to compose, is undefined. -/
theorem C70_null_violated (s : St) (addr : Nat) (r : Made) (bs : List Nat) (ok : Bool) :
    step s (.make .readAttachment 0 false r) addr = none ∧ step s (.compose (0 :: bs) ok) addr = none := by
  constructor
  · unfold step; rfl
  · unfold step
    dsimp only
    rw [if_neg (by simp)]
    unfold checkAll
    rfl

/-- **C70 (violated: no place for the result).** Whenever the functions that get the metadata segment or read an attachment return a handle, the same call with a null pointer for the
result is undefined. -/
theorem C70_null_out_violated {s : St} {f : Maker} {a addr : Nat} {m : Made} {r : Res} (hf : f = .metadataSegment ∨ f = .readAttachment)
    (hr : step s (.make f a false m) addr = some r) (ho : r.out ≠ none) : step s (.make f a true m) addr = none := by
  have key : ∀ o, make s f false m addr o = some r → make s f true m addr o = none := by
    intro o hm
    unfold make at hm ⊢
    split at hm
    · cases hm
    split at hm
    · cases hm
    split at hm
    · cases hm
    · rename_i h1 h2
      rw [if_neg h2]
      split at hm
      · cases hm; exact absurd rfl ho
      · rename_i h3
        rw [if_neg h3]
        cases m with
        | throws => cases hm; exact absurd rfl ho
        | null =>
          rcases hf with e | e
          · subst e
            cases hm
            exact absurd rfl ho
          · subst e
            rfl
        | object n => rfl
  have key' : ∀ k, check s k a (make s f false m addr) = some r → check s k a (make s f true m addr) = none := by
    intro k hk
    unfold check at hk ⊢
    split at hk
    · cases hk; exact absurd rfl ho
    · rename_i h1
      rw [if_neg h1]
      split at hk
      · cases hk
      · rename_i w h2
        split at hk
        · cases hk; exact absurd rfl ho
        · rename_i h3
          rw [if_neg h3]
          split at hk
          · cases hk
          · rename_i h4
            rw [if_neg h4]
            exact key _ hk
  unfold step at hr ⊢
  dsimp only at hr ⊢
  rcases hf with e | e
  · subst e
    rw [if_neg (by decide), if_neg (by simp)] at hr ⊢
    exact key' _ hr
  · subst e
    rw [if_pos rfl] at hr ⊢
    split at hr
    · cases hr
    · rename_i h1
      rw [if_neg h1]
      exact key' _ hr

/-- **C70 (violated: no display settings).** If the document has no display settings then success is reported and a handle is returned all the same, and asking it for a channel
is undefined. -/
theorem C70_no_settings_violated {s : St} {d addr : Nat} {r : Res} (ha : addr ≠ 0) (hr : step s (.make .displaySettings d false .null) addr = some r) (ho : r.out ≠ none) :
    r.code = .ok ∧ r.out = some addr ∧ ∀ i addr', step r.st (.channel addr i) addr' = none := by
  unfold step at hr
  dsimp only at hr
  rw [if_neg (by decide), if_neg (by simp)] at hr
  rcases check_or hr with ⟨_, e⟩ | ⟨o, hm⟩
  · subst e; exact absurd rfl ho
  · unfold make at hm
    split at hm
    · cases hm
    split at hm
    · cases hm
    split at hm
    · cases hm
    split at hm
    · cases hm; exact absurd rfl ho
    · cases hm
      refine ⟨rfl, rfl, fun i addr' => ?_⟩
      unfold step check
      dsimp only
      rw [if_neg ha]
      have : (s.wrap addr .displaySettings none).wrapper? addr = some ⟨addr, .displaySettings, none⟩ := by
        unfold St.wrapper? St.wrap
        rw [List.find?_cons_of_pos (by simp)]
      rw [this]
      rfl

/-! ### A history -/

/-- A stream of the caller (number 7) is passed, a reader opens it, an accessor is made for the reader, and the handles of the stream and the reader are released. -/
def exCalls : List (Call × Nat) :=
  [(.create .stream (some 7) true, 10), (.create .reader none true, 20), (.readerOpen 20 10 true, 30), (.make .accessor 20 false (.object 0), 30), (.release .stream 10, 40),
    (.release .reader 20, 40)]

def exSt : St := (run exCalls St.init).getD St.init

/-- The history exists, the stream is not closed, it is closed when the accessor is released. -/
example : (run exCalls St.init).map (·.closed) = some [] ∧ (run (exCalls ++ [(.release .accessor 30, 50)]) St.init).map (fun s => (s.closed, s.objs.length, s.wrappers.length)) = some ([7], 0, 0) := by
  decide +kernel

/-- A check of the conditions on a caller, for the example. -/
def carefulB (s : St) (c : Call) (addr : Nat) : Bool :=
  (expects c).all (fun e => e.2 != 0 && s.wrappers.any (fun w => w.addr == e.2 && w.kind == e.1) && s.wrappers.all fun w => w.addr != e.2 || w.kind == e.1) &&
  addr != 0 && s.wrappers.all (fun w => w.addr != addr) &&
  match c with
  | .create k ext _ => ((k == .reader || k == .writer) && ext == none) || k == .stream || k == .outputStream
  | .make f _ out r => out == false && !(f == .displaySettings && r == .null)
  | _ => true

theorem careful_of {s : St} {c : Call} {addr : Nat} (h : carefulB s c addr = true) : Careful s c addr := by
  unfold carefulB at h
  rw [Bool.and_eq_true, Bool.and_eq_true, Bool.and_eq_true, List.all_eq_true, List.all_eq_true] at h
  obtain ⟨⟨⟨h1, h2⟩, h3⟩, h4⟩ := h
  have h1' : ∀ e ∈ expects c, e.2 ≠ 0 ∧ LiveHandle s e.1 e.2 ∧ ∀ w ∈ s.wrappers, w.addr = e.2 → w.kind = e.1 := by
    intro e he
    have := h1 e he
    rw [Bool.and_eq_true, Bool.and_eq_true, List.all_eq_true, List.any_eq_true] at this
    obtain ⟨⟨k1, w, k2, k3⟩, k4⟩ := this
    refine ⟨by simpa using k1, ⟨w, k2, by simpa using k3⟩, fun w' hw' e' => ?_⟩
    have := k4 w' hw'
    rw [e'] at this
    simpa using this
  refine ⟨fun e he => Or.inr ⟨_, (h1' e he).2.1⟩, ⟨by simpa using h2, fun w hw => by simpa using h3 w hw⟩, ?_, ?_, ?_, ?_, ?_, ?_⟩
  · rintro k ext ok rfl
    simpa [or_assoc] using h4
  · rintro e he k ⟨w, hw, e1, rfl⟩
    rw [(h1' e he).2.2 w hw e1]
    rintro (⟨a, b⟩ | ⟨a, b⟩) <;> rw [a] at b <;> cases b
  · rintro a out r rfl
    refine ⟨(h1' _ (by simp only [expects]; exact List.mem_singleton.2 rfl)).1, ?_⟩
    rw [Bool.and_eq_true] at h4
    simpa using h4.1
  · rintro a out r rfl
    rw [Bool.and_eq_true] at h4
    simpa using h4.1
  · rintro bs ok rfl h0
    exact (h1' (.bitmap, 0) (by simp only [expects, List.mem_map]; exact ⟨0, h0, rfl⟩)).1 rfl
  · rintro a out rfl
    simp at h4

/-- The calls one after the other, as long as the caller is careful. -/
def runCareful : List (Call × Nat) → St → Option St
  | [], s => some s
  | c :: cs, s => if carefulB s c.1 c.2 then (step s c.1 c.2).bind fun r => runCareful cs r.st else none

theorem history_of : ∀ (cs : List (Call × Nat)) {done : List (Call × Nat)} {s t : St}, History done s → runCareful cs s = some t → History (done ++ cs) t := by
  intro cs
  induction cs with
  | nil =>
    intro done s t h e
    unfold runCareful at e
    cases e
    rwa [List.append_nil]
  | cons c cs ih =>
    intro done s t h e
    unfold runCareful at e
    split at e
    · rename_i hc
      obtain ⟨r, h1, h2⟩ := Option.bind_eq_some_iff.1 e
      have := ih (History.call h (careful_of hc) h1) h2
      rwa [List.append_assoc] at this
    · cases e

/-- The calls of the example are those of a careful caller. -/
theorem exHistory : History exCalls exSt := by
  have : runCareful exCalls St.init = some exSt := by rfl
  exact history_of exCalls .nil this

/-- The stream is needed by the accessor, through the reader. -/
example : StreamHeld exSt 7 ∧ passed 7 exCalls = 1 ∧ exSt.closed = [] :=
  ⟨⟨0, ⟨.stream, 1, [], 0, some 7⟩, .member (.member (.handle (w := ⟨30, .accessor, some 2⟩) (by decide +kernel) rfl) rfl (List.mem_singleton.2 rfl)) rfl (List.mem_singleton.2 rfl), rfl, rfl⟩,
    by decide +kernel, by decide +kernel⟩

example : exSt.closed.count 7 = 0 :=
  (C70_closed exHistory 7 (by decide +kernel)).1
    ⟨0, ⟨.stream, 1, [], 0, some 7⟩, .member (.member (.handle (w := ⟨30, .accessor, some 2⟩) (by decide +kernel) rfl) rfl (List.mem_singleton.2 rfl)) rfl (List.mem_singleton.2 rfl), rfl, rfl⟩

/-- A careful call that is rejected: the handle of the accessor is given as that of a stream. -/
example : Careful exSt (.release .stream 30) 40 ∧ (.stream, 30) ∈ expects (.release .stream 30) ∧ ¬LiveHandle exSt .stream 30 := by
  have hw : exSt.wrappers = [⟨30, .accessor, some 2⟩] := by rfl
  refine ⟨⟨?_, ?_, nofun, ?_, nofun, nofun, nofun, nofun⟩, by simp [expects], ?_⟩
  · intro e he
    rw [List.mem_singleton.1 he]
    exact Or.inr ⟨.accessor, ⟨30, .accessor, some 2⟩, by rw [hw]; simp, rfl, rfl⟩
  · rw [hw]; decide
  · rintro e he k ⟨w, h1, _, rfl⟩
    rw [List.mem_singleton.1 he]
    rw [hw, List.mem_singleton] at h1
    rw [h1]
    rintro (⟨a, b⟩ | ⟨a, b⟩) <;> cases a
  · rintro ⟨w, h1, _, h2⟩
    rw [hw, List.mem_singleton] at h1
    rw [h1] at h2
    cases h2

/-- A bitmap is made from a sub-block and locked; an attachment is read; document information is made. -/
def exCalls2 : List (Call × Nat) :=
  [(.create .stream none true, 10), (.create .reader none true, 20), (.readerOpen 20 10 true, 30), (.make .readSubBlock 20 false (.object 0), 30), (.make .createBitmap 30 false (.object 0), 40),
    (.lock 40, 50), (.make .readAttachment 20 false (.object 0), 50), (.make .metadataSegment 20 false (.object 0), 60), (.make .documentInfo 60 false (.object 0), 70)]

def exSt2 : St := (run exCalls2 St.init).getD St.init

theorem exHistory2 : History exCalls2 exSt2 := by
  have : runCareful exCalls2 St.init = some exSt2 := by rfl
  exact history_of exCalls2 .nil this

/-- The bitmap is locked and cannot be released; after unlocking it can be. -/
example : LiveHandle exSt2 .bitmap 40 ∧ lockCount exSt2 40 = 1 ∧ carefulB exSt2 (.release .bitmap 40) 80 = true ∧
    (step exSt2 (.release .bitmap 40) 80).map (·.code) = some .lockViolated ∧
    ((run [(.unlock 40, 80)] exSt2).bind fun s => step s (.release .bitmap 40) 80).map (·.code) = some .ok :=
  ⟨⟨⟨40, .bitmap, some 3⟩, by decide +kernel, rfl, rfl⟩, by decide +kernel, by decide +kernel, by decide +kernel, by decide +kernel⟩

/-- The attachment's handle as document information, and the other way round. -/
example : step exSt2 (.release .documentInfo 50) 80 = none ∧ step exSt2 (.use .attachment 70) 80 = none :=
  ⟨(C70_confused_violated exHistory2 (k := .attachment) ⟨⟨50, .attachment, some 4⟩, by decide +kernel, rfl, rfl⟩ (Or.inl ⟨rfl, rfl⟩) 80).2.1,
    (C70_confused_violated exHistory2 (k := .documentInfo) ⟨⟨70, .documentInfo, some 6⟩, by decide +kernel, rfl, rfl⟩ (Or.inr ⟨rfl, rfl⟩) 80).1⟩

/-- The call that returns a handle for display settings that are not there. -/
example : (step exSt2 (.make .displaySettings 70 false .null) 80).map (fun r => (r.code, r.out)) = some (.ok, some 80) := by decide +kernel

/-- The call that gets the metadata segment returns a handle. -/
example : (step exSt2 (.make .metadataSegment 20 false (.object 0)) 80).map (fun r => (r.code, r.out)) = some (.ok, some 80) := by decide +kernel

end Verif
