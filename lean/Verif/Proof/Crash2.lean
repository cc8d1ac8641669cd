import Verif.Proof.Crash
import Verif.Proof.DocMore

/-! The documents a crash can leave behind. -/

namespace Verif.Czi

open Spec

attribute [local irreducible] zeros

section
variable {d : Disk} {info : WriterInfo} {segs : List Seg} {q sp mp ap : Nat} {dir : List Entry} {att : List AttEntry}
  {subs : List AddInfo} {atts : List AddAtt} {mt : Option MetaInfo}

theorem Written.listed (hw : Written d info segs q sp mp ap dir att subs atts mt)
    (hres : atts.length = 0 ∨ ∀ r, info.reservedAttDir = some r → (if r = 0 then 10 else r) ≤ atts.length) {al : Alloc} (hal : ∀ n, al n = true) (o : OpenOptions) :
    openDoc al d.stream o = .ok ⟨⟨1, 0, info.guid, sp, mp, ap⟩, dir, att.map AttEntry.read, o⟩ := by
  obtain ⟨as, eo, k1, k2⟩ := hw.open hal o
  have hl := hw.att_length
  have has : as = att.map AttEntry.read := by
    by_cases hn : att = []
    · rw [k1 hn, hn]; rfl
    · rw [k2 hn]
      have hne : att.length ≠ 0 := fun h => hn (List.length_eq_zero_iff.1 h)
      have hod : attOnDisk info.reservedAttDir att = attEntriesBytes att := by
        unfold attOnDisk
        cases hr : info.reservedAttDir with
        | none => rfl
        | some r =>
          dsimp only
          rcases hres with h0 | h0
          · omega
          · have := h0 r hr
            rw [if_neg (by omega)]
      have := attEntriesOf_bytes att hw.att_pos []
      rw [List.append_nil] at this
      rw [hod, this]
  rw [eo, has]

/-- The same document with a header that lacks some of the positions. -/
theorem Written.torn (hw : Written d info segs q sp mp ap dir att subs atts mt) {d' : Disk} (hs : d'.size = d.size) (hg : ∀ i, 544 ≤ i → d'.get i = d.get i)
    {j : Nat} (hh : Holds d' 0 (fileHeader info.guid (if j ≤ 84 then 0 else sp) (if j ≤ 92 then 0 else mp) (if j ≤ 104 then 0 else ap))) :
    (j ≤ 84 ∧ ∀ al o doc, openDoc al d'.stream o ≠ .ok doc) ∨
    (∃ mp' mt', WrittenS d' info segs q sp mp' 0 dir [] subs mt' ∧ (mt' = none ∨ mt' = mt)) ∨
    Written d' info segs q sp mp ap dir att subs atts mt := by
  obtain ⟨p1, p2, p3⟩ := hw.closed.positions hw.small
  have hon : OnDisk d' segs := by
    intro g hgm
    obtain ⟨a1, a2, a3, u, a4, a5⟩ := hw.closed.onDisk g hgm
    have := hw.pos_lt hgm
    exact ⟨a1, a2, a3.samePast hs hg this.1, u, a4, a5.samePast hs hg (by omega)⟩
  by_cases h1 : j ≤ 84
  · left
    refine ⟨h1, fun al o doc => ?_⟩
    rw [if_pos h1, if_pos (by omega), if_pos (by omega)] at hh
    exact open_fails hh (by omega) (by omega) al o doc
  · right
    rw [if_neg h1] at hh
    by_cases h3 : j ≤ 104
    · left
      rw [if_pos h3] at hh
      have key : ∀ mp' mt', (if j ≤ 92 then 0 else mp) = mp' → MetaAt mt' mp' segs → (∀ m, mt' = some m → MetaOk m) →
          WrittenS d' info segs q sp mp' 0 dir [] subs mt' := by
        intro mp' mt' he hm hok
        rw [he] at hh
        exact {
          closed := ⟨hh, hw.closed.chain, hon, hw.closed.subDir, hm, .inl ⟨rfl, rfl⟩, fun _ => rfl⟩
          small := hw.small
          dirPerm := hw.dirPerm
          subsEq := hw.subsEq
          subsOk := hw.subsOk
          metaOk := hok
          subsLen := hw.subsLen
          attLen := by simp
          attBytes := fun h => absurd rfl h }
      by_cases h2 : j ≤ 92
      · exact ⟨0, none, key 0 none (if_pos h2) rfl (by intro m h; cases h), .inl rfl⟩
      · exact ⟨mp, mt, key mp mt (if_neg h2) hw.closed.metadata hw.metaOk, .inr rfl⟩
    · right
      rw [if_neg h3, if_neg (by omega)] at hh
      have hatt : (att = [] ∧ ap = 0) ∨ (∃ al, (⟨ap, al, .attDir (some att)⟩ : Seg) ∈ segs ∧ ap + 288 + 128 * att.length ≤ d'.size) := by
        rw [hs]; exact hw.closed.attDir
      have hap : att ≠ [] → 544 ≤ ap := by
        intro hne
        rcases hw.closed.attDir with ⟨h, _⟩ | ⟨al, h, _⟩
        · exact absurd h hne
        · exact (hw.pos_lt h).1
      exact {
        closed := ⟨hh, hw.closed.chain, hon, hw.closed.subDir, hw.closed.metadata, hatt, hw.closed.attNone⟩
        small := hw.small
        dirPerm := hw.dirPerm
        subsEq := hw.subsEq
        subsOk := hw.subsOk
        metaOk := hw.metaOk
        subsLen := hw.subsLen
        attLen := hw.attLen
        attBytes := fun h => (hw.attBytes h).samePast hs hg (by have := hap h; omega)
        attEq := hw.attEq
        attsEq := hw.attsEq
        attsOk := hw.attsOk
        attsLen := hw.attsLen }

theorem Written.pos_size (hw : Written d info segs q sp mp ap dir att subs atts mt) : sp < d.size ∧ mp < d.size ∧ ap < d.size := by
  have key : ∀ g ∈ segs, g.pos < d.size := by
    intro g hg
    obtain ⟨_, _, _, u, _, a⟩ := hw.closed.onDisk g hg
    have := a.1
    simp only [le_length, leInt_length] at this
    omega
  have h0 : 0 < d.size := by
    have := hw.closed.header.1
    rw [fileHeader_length] at this
    omega
  refine ⟨?_, ?_, ?_⟩
  · obtain ⟨al, hs⟩ := hw.closed.subDir
    exact key _ hs
  · have hm := hw.closed.metadata
    cases mt with
    | none => rw [show mp = 0 from hm]; exact h0
    | some m =>
      obtain ⟨al, hs⟩ := hm
      exact key _ hs
  · rcases hw.closed.attDir with ⟨_, rfl⟩ | ⟨al, hs, _⟩
    · exact h0
    · exact key _ hs

end

theorem low_within {ws : List Write} (h : ∀ w ∈ ws, 544 ≤ w.1) : ∃ hi, WithinW 544 hi ws := by
  induction ws with
  | nil => exact ⟨544, by intro w hw; cases hw⟩
  | cons w ws ih =>
    obtain ⟨hi, k⟩ := ih (fun x hx => h x (List.mem_cons_of_mem _ hx))
    refine ⟨max hi (w.1 + w.2.length), ?_⟩
    intro x hx
    rcases List.mem_cons.1 hx with rfl | hx
    · exact ⟨h _ (List.mem_cons_self ..), by omega⟩
    · have := k x hx
      exact ⟨this.1, by omega⟩

/-- The files a crash can leave behind. -/
theorem crash_cases (dup : Bool) (info : WriterInfo) (ops : List WOp) (hi : InfoOk info) (hops : OpsOk ops) :
    ∃ d done, writeDoc dup Disk.empty info ops = some (d, done) ∧
      ∃ segs q sp mp ap dir att, Written d info segs q sp mp ap dir att (subsOf done) (attsOf done) (lastMeta done) ∧
      ∀ k j, (k + 1 = (docTrace dup info ops).length → ¬ TornPosition d.size j) →
        ((∀ al o doc, openDoc al (crashed dup info ops k j).stream o ≠ .ok doc) ∧ (k + 1 < (docTrace dup info ops).length ∨ k + 1 = (docTrace dup info ops).length ∧ j ≤ 84)) ∨
        (∃ mp' mt', WrittenS (crashed dup info ops k j) info segs q sp mp' 0 dir [] (subsOf done) mt' ∧ (mt' = none ∨ mt' = lastMeta done)) ∨
        Written (crashed dup info ops k j) info segs q sp mp ap dir att (subsOf done) (attsOf done) (lastMeta done) := by
  obtain ⟨d, done, e, segs, q, sp, mp, ap, dir, att, hw⟩ := writeDoc_written dup Disk.empty info ops hi hops
  refine ⟨d, done, e, segs, q, sp, mp, ap, dir, att, hw, ?_⟩
  intro k j hkj
  have hkeep : ∀ s, (session (step ⟨WState.init dup, Disk.empty⟩ (.create info)).1 ops).1 = s → s.w.info = some info := by
    intro s hs
    obtain ⟨s0, segs0, e1, hinv, hn, _⟩ := step_create dup Disk.empty info hi
    have hos : opsSize ops = (ops.map opBytes).sum + 4096 * ops.length := rfl
    have hlen := hops.count
    have htot := hops.total
    obtain ⟨segs, hinv2, _, _⟩ := session_inv ops hinv hops.each (by omega)
    rw [e1] at hs
    rw [← hs]
    exact hinv2.operational
  obtain ⟨mid, x, y, z, htr, hmid⟩ := docTrace_shape e hops.each hkeep
  have hd : d = apply Disk.empty (docTrace dup info ops) := writeDoc_trace e
  have hlen : (docTrace dup info ops).length = mid.length + 2 := by rw [htr]; simp
  rw [hlen] at hkj ⊢
  obtain ⟨hhi, hwi⟩ := low_within hmid
  have hdec : crashed dup info ops k j = apply Disk.empty (cut (docTrace dup info ops) k j) := rfl
  rw [htr] at hd hdec
  -- the file before the last write
  have hne : fileHeader info.guid 0 0 0 ≠ [] := by
    intro h
    have := congrArg List.length h
    rw [fileHeader_length] at this
    cases this
  have h0 : ∀ ms : List Write, (∀ w ∈ ms, 544 ≤ w.1) → Holds (apply Disk.empty ((0, fileHeader info.guid 0 0 0) :: ms)) 0 (fileHeader info.guid 0 0 0) := by
    intro ms hms
    obtain ⟨h', hw'⟩ := low_within hms
    show Holds (apply (Disk.empty.write 0 _) ms) 0 _
    exact (Holds.write hne).frame hw' (.inl (by rw [fileHeader_length]))
  generalize hD : apply Disk.empty ((0, fileHeader info.guid 0 0 0) :: mid) = D at *
  have hH0 := h0 mid hmid
  rw [hD] at hH0
  have hDs : 544 ≤ D.size := by have := hH0.1; rw [fileHeader_length] at this; omega
  have hdD : d = D.write 0 (fileHeader info.guid x y z) := by
    rw [hd, ← List.cons_append, apply_append, hD]; rfl
  have hne' : fileHeader info.guid x y z ≠ [] := by
    intro h
    have := congrArg List.length h
    rw [fileHeader_length] at this
    cases this
  have hH : fileHeader info.guid sp mp ap = fileHeader info.guid x y z := by
    refine Holds.unique hw.closed.header ?_ (by rw [fileHeader_length, fileHeader_length])
    rw [hdD]
    exact Holds.write hne'
  rw [← hH] at hdD hne'
  have hdsz : d.size = D.size := by
    rw [hdD, Disk.write_size hne', fileHeader_length]; omega
  have hdget : ∀ i, 544 ≤ i → d.get i = D.get i := by
    intro i hi
    rw [hdD]
    exact Disk.write_get_out (by rw [fileHeader_length]; omega)
  by_cases hk0 : k = 0
  · -- the first header is torn
    left
    refine ⟨fun al o doc => ?_, .inl (by omega)⟩
    subst hk0
    have hc : crashed dup info ops 0 j = Disk.empty.write 0 ((fileHeader info.guid 0 0 0).take j) := by rw [hdec]; rfl
    rw [hc]
    by_cases hj : j < 544
    · refine open_short ?_ al o doc
      unfold Disk.write Disk.empty
      dsimp only
      split
      · omega
      · rw [List.length_take, fileHeader_length]
        omega
    · rw [List.take_of_length_le (by rw [fileHeader_length]; omega)]
      exact open_fails (Holds.write hne) (by omega) (by omega) al o doc
  · by_cases hk1 : k + 1 < mid.length + 2
    · -- in the middle
      left
      refine ⟨fun al o doc => ?_, .inl hk1⟩
      have hcut : ∃ ms, cut ((0, fileHeader info.guid 0 0 0) :: (mid ++ [(0, fileHeader info.guid x y z)])) k j = (0, fileHeader info.guid 0 0 0) :: ms ∧ ∀ w ∈ ms, 544 ≤ w.1 := by
        obtain ⟨k, rfl⟩ : ∃ k', k = k' + 1 := ⟨k - 1, by omega⟩
        unfold cut
        rw [List.take_succ_cons, List.drop_succ_cons, List.take_append_of_le_length (by omega), List.drop_append_of_le_length (by omega)]
        refine ⟨_, rfl, ?_⟩
        have hlt : k < mid.length := by omega
        rw [List.drop_eq_getElem_cons hlt]
        intro w hw
        simp only [List.cons_append, List.head?_cons, Option.map_some, Option.toList_some] at hw
        rcases List.mem_append.1 hw with hw | hw
        · exact hmid w (List.mem_of_mem_take hw)
        · rw [List.mem_singleton] at hw
          subst hw
          exact hmid mid[k] (List.getElem_mem hlt)
      obtain ⟨ms, hc, hms⟩ := hcut
      rw [hdec, hc]
      exact open_fails (h0 ms hms) (by omega) (by omega) al o doc
    · -- the last header
      have hfin : ∃ j', ¬ TornPosition d.size j' ∧ crashed dup info ops k j = D.write 0 ((fileHeader info.guid sp mp ap).take j') ∧ (j' ≤ 84 → k + 1 = mid.length + 2 ∧ j ≤ 84) := by
        by_cases hk2 : k + 1 = mid.length + 2
        · refine ⟨j, hkj hk2, ?_, fun h => ⟨hk2, h⟩⟩
          have hcut : cut ((0, fileHeader info.guid 0 0 0) :: (mid ++ [(0, fileHeader info.guid x y z)])) k j =
              ((0, fileHeader info.guid 0 0 0) :: mid) ++ [(0, (fileHeader info.guid x y z).take j)] := by
            have : k = mid.length + 1 := by omega
            subst this
            unfold cut
            rw [List.take_succ_cons, List.drop_succ_cons, List.take_left, List.drop_left]
            rfl
          rw [hdec, hcut, apply_append, hD, hH]
          rfl
        · refine ⟨544, ?_, ?_, ?_⟩
          · unfold TornPosition; omega
          · rw [List.take_of_length_le (by rw [fileHeader_length])]
            have hcut : cut ((0, fileHeader info.guid 0 0 0) :: (mid ++ [(0, fileHeader info.guid x y z)])) k j =
                ((0, fileHeader info.guid 0 0 0) :: mid) ++ [(0, fileHeader info.guid x y z)] := by
              unfold cut
              rw [List.take_of_length_le (by simp; omega), List.drop_eq_nil_of_le (by simp; omega)]
              simp
            rw [hdec, hcut, apply_append, hD, hH]
            rfl
          · omega
      obtain ⟨j', hj', hc, hlt⟩ := hfin
      rw [hc]
      have hmix : Holds (D.write 0 ((fileHeader info.guid sp mp ap).take j')) 0 (mix (fileHeader info.guid sp mp ap) (fileHeader info.guid 0 0 0) j') := by
        unfold mix
        have hl1 : ((fileHeader info.guid sp mp ap).take j').length = min j' 544 := by rw [List.length_take, fileHeader_length]
        have hsz : D.size ≤ (D.write 0 ((fileHeader info.guid sp mp ap).take j')).size := Disk.write_size_le ..
        constructor
        · rw [List.length_append, hl1, List.length_drop, fileHeader_length]
          omega
        · intro i hi
          rw [List.length_append, hl1, List.length_drop, fileHeader_length] at hi
          by_cases hij : i < min j' 544
          · rw [getD_append_left (by omega)]
            exact Disk.write_get_in (p := 0) (by omega)
          · rw [getD_append_right (by omega), Disk.write_get_out (by omega), hl1]
            have := hH0.2 i (by rw [fileHeader_length]; omega)
            rw [this]
            simp only [List.getD_eq_getElem?_getD, List.getElem?_drop]
            congr 2
            omega
      rw [fileHeader_mix _ _ _ _ hj' hw.pos_size.1 hw.pos_size.2.1 hw.pos_size.2.2] at hmix
      have hsz : (D.write 0 ((fileHeader info.guid sp mp ap).take j')).size = d.size := by
        rw [hdsz]
        unfold Disk.write
        dsimp only
        split
        · rfl
        · rw [List.length_take, fileHeader_length]; omega
      have hget : ∀ i, 544 ≤ i → (D.write 0 ((fileHeader info.guid sp mp ap).take j')).get i = d.get i := by
        intro i hi
        rw [hdget i hi]
        exact Disk.write_get_out (by rw [List.length_take, fileHeader_length]; omega)
      rcases hw.torn hsz hget hmix with ⟨h1, h⟩ | h | h
      · exact .inl ⟨h, .inr (hlt h1)⟩
      · exact .inr (.inl h)
      · exact .inr (.inr h)

end Verif.Czi
