import Verif.Proof.EditClose

/-! What a reader sees of a document closed by a reader-writer. -/

namespace Verif.Czi

open Spec

attribute [local irreducible] zeros

/-! ## The segments of a document -/

/-- The slots in use. -/
def slotsOf (ks as : List Int) (a m : Bool) : List Slot :=
  ks.map Slot.sub ++ (as.map Slot.att ++ (Slot.subDir :: ((if a then [Slot.attDir] else []) ++ (if m then [Slot.metadata] else []))))

theorem slotsOf_nodup {ks as : List Int} (h1 : ks.Pairwise (· < ·)) (h2 : as.Pairwise (· < ·)) (a m : Bool) : (slotsOf ks as a m).Pairwise (· ≠ ·) := by
  unfold slotsOf
  rw [List.pairwise_append, List.pairwise_append, List.pairwise_cons, List.pairwise_append]
  refine ⟨?_, ⟨?_, ⟨?_, ?_, ?_, ?_⟩, ?_⟩, ?_⟩
  · rw [List.pairwise_map]
    exact h1.imp (fun {a b} hab x => by cases x; omega)
  · rw [List.pairwise_map]
    exact h2.imp (fun {a b} hab x => by cases x; omega)
  · intro t ht
    rcases List.mem_append.1 ht with h | h <;> split at h <;> simp at h <;> subst h <;> intro x <;> cases x
  · split <;> simp
  · split <;> simp
  · intro x hx y hy
    split at hx <;> split at hy <;> simp at hx hy
    subst hx hy
    intro h
    cases h
  · intro x hx y hy
    obtain ⟨k, _, rfl⟩ := List.mem_map.1 hx
    rcases List.mem_cons.1 hy with rfl | hy
    · intro h; cases h
    · rcases List.mem_append.1 hy with h | h <;> split at h <;> simp at h <;> subst h <;> intro x <;> cases x
  · intro x hx y hy
    obtain ⟨k, _, rfl⟩ := List.mem_map.1 hx
    rcases List.mem_append.1 hy with hy | hy
    · obtain ⟨j, _, rfl⟩ := List.mem_map.1 hy
      intro h; cases h
    · rcases List.mem_cons.1 hy with rfl | hy
      · intro h; cases h
      · rcases List.mem_append.1 hy with h | h <;> split at h <;> simp at h <;> subst h <;> intro x <;> cases x

/-- The position of the segment in a slot. -/
def posIn (H : Slot → Option LSeg) (t : Slot) : Nat := ((H t).map LSeg.pos).getD 0

theorem posIn_some {H : Slot → Option LSeg} {t : Slot} {g : LSeg} (h : H t = some g) : posIn H t = g.pos := by
  unfold posIn
  rw [h]
  rfl

theorem attKey_pos {as bs : List AttEntry} (h : as.map attKey = bs.map attKey) : as.map (·.filePosition) = bs.map (·.filePosition) := by
  have := congrArg (List.map Prod.fst) h
  rw [List.map_map, List.map_map] at this
  exact this

theorem rwReadAtt_key {al : Alloc} {s : Stream} {e e' : AttEntry} (h : attKey e = attKey e') : rwReadAtt al s e = rwReadAtt al s e' := by
  unfold attKey at h
  simp only [Prod.mk.injEq] at h
  obtain ⟨h1, h2, h3, h4⟩ := h
  unfold rwReadAtt
  rw [h1, h2, h3, h4]

theorem Doc.readAttachment_eq (al : Alloc) (s : Stream) (doc : Doc) (i : Nat) : doc.readAttachment al s i =
    (match doc.attachments[i]? with
     | none => .ok none
     | some e => (rwReadAtt al s e).map some) := by
  unfold Doc.readAttachment rwReadAtt
  cases doc.attachments[i]? with
  | none => rfl
  | some e =>
    dsimp only
    cases readAttachmentData al s e.filePosition <;> rfl

theorem endAt_eq {d : Disk} {g : LSeg} (h : g.good d) (ha : g.alloc < 2 ^ 64) : endAt d g.pos = g.fin := by
  obtain ⟨h1, h2⟩ := g.hdr d h
  unfold endAt
  rw [allocAt_eq h1 h2 ha]
  rfl

theorem looksOnly {α : Type} {d : Disk} {g : LSeg} {f : Stream → α} {v : α} (h : g.good d) (ha : g.alloc < 2 ^ 64) (hf : ∀ d', g.good d' → f d'.stream = v) :
    LooksOnlyAt d g.pos f := by
  intro d' hs hb
  rw [endAt_eq h ha] at hb
  rw [hf d h, hf d' (g.loc d d' ⟨hs, hb⟩ h)]

/-- The attachments as they are read. -/
theorem Done.attachments {al : Alloc} {o : OpenOptions} {d : Disk} {hd : Header} {w : RWState} {c : Content} {H : Slot → Option LSeg} {top : Nat}
    (h : Done al o d hd w c H top) : ∃ as, as.map attKey = (w.att.atts.map Prod.snd).map attKey ∧
      ((hd.attDirPos = 0 ∧ H .attDir = none ∧ as = []) ∨
       ∃ g x, H .attDir = some g ∧ g.pos = hd.attDirPos ∧ hd.attDirPos ≠ 0 ∧ ∀ d', g.good d' → readAttDir al d'.stream hd.attDirPos = .ok (as, x)) := by
  have h1 := h.attDir
  have h2 := h.attDirPos
  cases hi : w.attDirSeg with
  | none =>
    rw [hi] at h1 h2
    cases hg : H .attDir with
    | none =>
      rw [hg] at h1
      have h1 : w.att.atts.map Prod.snd = [] := h1
      exact ⟨[], by rw [h1], Or.inl ⟨h2, rfl, rfl⟩⟩
    | some g => rw [hg] at h1; exact absurd h1 id
  | some i =>
    rw [hi] at h1 h2
    cases hg : H .attDir with
    | none => rw [hg] at h1; exact absurd h1 id
    | some g =>
      rw [hg] at h1
      obtain ⟨e1, ⟨as, x⟩, e2, e3⟩ := h1
      have h2 : hd.attDirPos = i.pos := h2
      have := h.heap.low _ g hg
      refine ⟨as, e2, Or.inr ⟨g, x, rfl, by omega, by omega, ?_⟩⟩
      intro d' hd'
      rw [h2, ← e1]
      exact e3 d' hd'

theorem Done.open {al : Alloc} {o : OpenOptions} {d : Disk} {hd : Header} {w : RWState} {c : Content} {H : Slot → Option LSeg} {top : Nat}
    (h : Done al o d hd w c H top) : ∃ as, as.map attKey = (w.att.atts.map Prod.snd).map attKey ∧
      openDoc al d.stream o = .ok ⟨hd, w.dir.subBlks.map Prod.snd, as, o⟩ := by
  obtain ⟨as, h1, h2⟩ := h.attachments
  obtain ⟨g, hg, hp, F, hF, x, hx⟩ := h.subDir
  have hr : readSubDir al d.stream (parseOptions o) hd.subDirPos = .ok (w.dir.subBlks.map Prod.snd, x) := by
    rw [← hp, hF d (h.heap.good _ g hg), hx]
  refine ⟨as, h1, ?_⟩
  unfold openDoc openDocWith
  rw [h.header]
  simp only [bind, Except.bind]
  rw [hr]
  dsimp only
  rcases h2 with ⟨e1, _, e2⟩ | ⟨g', x', e1, e2, e3, e4⟩
  · rw [if_neg (by omega), e2]
  · rw [if_pos e3, e4 d (h.heap.good _ g' e1)]

theorem keys_sorted {α : Type} {m : List (Int × α)} (h : KeysSorted m) : (m.map Prod.fst).Pairwise (· < ·) := by
  rw [List.pairwise_map]
  exact h

theorem mapFind_isSome {α : Type} {m : List (Int × α)} (h : KeysSorted m) (k : Int) : k ∈ m.map Prod.fst ↔ (mapFind m k).isSome := by
  constructor
  · intro hk
    obtain ⟨p, hp, rfl⟩ := List.mem_map.1 hk
    rw [mapFind_mem h hp]
    rfl
  · intro hk
    obtain ⟨v, hv⟩ := Option.isSome_iff_exists.1 hk
    exact List.mem_map.2 ⟨_, mapFind_key hv, rfl⟩

theorem SubSlot.isSome {al : Alloc} {o : OpenOptions} {e : Option Entry} {g : Option LSeg} {v : Option SbView} (h : SubSlot al o e g v) :
    e.isSome = v.isSome := by
  cases e with
  | none => rw [h.none.2]; rfl
  | some e => obtain ⟨_, _, _, rfl, _⟩ := h.some; rfl

theorem AttSlot.isSome {al : Alloc} {e : Option AttEntry} {g : Option LSeg} {v : Option Attachment} (h : AttSlot al e g v) :
    e.isSome = v.isSome := by
  cases e with
  | none => rw [h.none.2]; rfl
  | some e => obtain ⟨_, _, _, rfl, _⟩ := h.some; rfl

theorem map_key_at {α : Type} {m : List (Int × α)} (hs : KeysSorted m) {i : Nat} {k : Int} (h : (m.map Prod.fst)[i]? = some k) :
    ∃ v, m[i]? = some (k, v) ∧ mapFind m k = some v := by
  rw [List.getElem?_map] at h
  obtain ⟨p, hp, rfl⟩ := Option.map_eq_some_iff.1 h
  exact ⟨p.2, hp, mapFind_mem hs (List.mem_of_getElem? hp)⟩

theorem Done.shows {al : Alloc} {o : OpenOptions} {d : Disk} {hd : Header} {w : RWState} {c : Content} {H : Slot → Option LSeg} {top : Nat}
    (h : Done al o d hd w c H top) {as : List AttEntry} (has : as.map attKey = (w.att.atts.map Prod.snd).map attKey) :
    ReaderShows al d.stream ⟨hd, w.dir.subBlks.map Prod.snd, as, o⟩ c := by
  have hlen : as.length = w.att.atts.length := by
    have := congrArg List.length has
    simpa using this
  refine ⟨⟨w.dir.subBlks.map Prod.fst, by simp, keys_sorted h.dirInv.sorted, ?_, ?_⟩, ⟨w.att.atts.map Prod.fst, by simp [hlen], keys_sorted h.attInv.sorted, ?_, ?_⟩, ?_⟩
  · intro k
    rw [mapFind_isSome h.dirInv.sorted, ← (h.sub k).isSome]
    rfl
  · intro i k hk
    obtain ⟨e, h1, h2⟩ := map_key_at h.dirInv.sorted hk
    have hs := h.sub k
    rw [show w.dir.tryGet k = some e from h2] at hs
    obtain ⟨g, v, hg, hv, _, _, sb, sb', e1, _, hread⟩ := hs.some
    rw [hv]
    unfold Doc.readSubBlock
    dsimp only
    rw [List.getElem?_map, h1]
    dsimp only [Option.map]
    rw [(hread d (h.heap.good _ g hg)).1]
    exact congrArg (fun z => Except.ok (some z)) e1
  · intro k
    rw [mapFind_isSome h.attInv.sorted, ← (h.att k).isSome]
    rfl
  · intro i k hk
    obtain ⟨e, h1, h2⟩ := map_key_at h.attInv.sorted hk
    have hs := h.att k
    rw [show w.att.tryGet k = some e from h2] at hs
    obtain ⟨g, v, hg, hv, _, _, _, hread⟩ := hs.some
    have h3 := congrArg (fun l => l[i]?) has
    rw [List.getElem?_map, List.getElem?_map, List.getElem?_map, h1] at h3
    obtain ⟨e', h4, h5⟩ := Option.map_eq_some_iff.1 h3
    dsimp only
    rw [hv, Doc.readAttachment_eq]
    dsimp only
    rw [h4]
    dsimp only
    rw [rwReadAtt_key h5, hread d (h.heap.good _ g hg)]
    rfl
  · have h1 := h.metadata
    have h2 := h.metadataPos
    unfold Doc.readMetadata
    dsimp only
    cases hi : w.metaSeg with
    | none =>
      rw [hi] at h1 h2
      have h2 : hd.metadataPos = 0 := h2
      rw [h1.none.2, if_pos (Or.inr h2)]
    | some i =>
      rw [hi] at h1 h2
      obtain ⟨g, v, hg, hv, e1, e2, e3⟩ := h1.some
      have h2 : hd.metadataPos = i.pos := h2
      have l1 := h.heap.low _ g hg
      have l2 := h.heap.high _ g hg
      have l3 := h.small
      have l4 : g.fin = g.pos + 32 + g.alloc := rfl
      rw [hv, if_neg (by omega), h2]
      exact e3 d (h.heap.good _ g hg)

theorem Done.sound {al : Alloc} {o : OpenOptions} {d : Disk} {hd : Header} {w : RWState} {c : Content} {H : Slot → Option LSeg} {top : Nat}
    (h : Done al o d hd w c H top) {as : List AttEntry} (has : as.map attKey = (w.att.atts.map Prod.snd).map attKey)
    (hop : openDoc al d.stream o = .ok ⟨hd, w.dir.subBlks.map Prod.snd, as, o⟩) :
    SoundDoc al d o ⟨hd, w.dir.subBlks.map Prod.snd, as, o⟩ ∧ EndsBy d ⟨hd, w.dir.subBlks.map Prod.snd, as, o⟩ top := by
  obtain ⟨gs, hgs, hgp, F, hF, x, hx⟩ := h.subDir
  have small : ∀ t g, H t = some g → g.alloc < 2 ^ 64 ∧ g.fin < 2 ^ 62 := by
    intro t g hg
    have := h.heap.high t g hg
    have := h.small
    have l4 : g.fin = g.pos + 32 + g.alloc := rfl
    omega
  -- the slots
  have hsub : ∀ e ∈ w.dir.subBlks.map Prod.snd, ∃ k g, w.dir.tryGet k = some e ∧ H (.sub k) = some g ∧ g.pos = e.filePosition ∧ ∃ sb sb', viewRead sb = viewRead sb' ∧
      ∀ d', g.good d' → readEntry al d'.stream o e = .ok sb ∧ rwReadEntry al d'.stream e = .ok sb' := by
    intro e he
    obtain ⟨p, hp, rfl⟩ := List.mem_map.1 he
    have hk : w.dir.tryGet p.1 = some p.2 := mapFind_mem h.dirInv.sorted hp
    have hs := h.sub p.1
    rw [hk] at hs
    obtain ⟨g, v, hg, _, e1, _, sb, sb', e2, e3, e4⟩ := hs.some
    exact ⟨p.1, g, hk, hg, e1, sb, sb', by rw [e2, e3], e4⟩
  have hatt : ∀ e ∈ as, ∃ k g, H (.att k) = some g ∧ g.pos = e.filePosition ∧ ∃ v, ∀ d', g.good d' → rwReadAtt al d'.stream e = .ok v := by
    intro e he
    have : attKey e ∈ (w.att.atts.map Prod.snd).map attKey := by rw [← has]; exact List.mem_map_of_mem he
    obtain ⟨e', he', hkey⟩ := List.mem_map.1 this
    obtain ⟨p, hp, rfl⟩ := List.mem_map.1 he'
    have hs := h.att p.1
    rw [show w.att.tryGet p.1 = some p.2 from mapFind_mem h.attInv.sorted hp] at hs
    obtain ⟨g, v, hg, _, e1, _, _, e4⟩ := hs.some
    have hpos : p.2.filePosition = e.filePosition := congrArg Prod.fst hkey
    exact ⟨p.1, g, hg, by omega, v, fun d' hd' => by rw [← rwReadAtt_key hkey]; exact e4 d' hd'⟩
  have hmeta : (hd.metadataPos = 0 ∧ H .metadata = none) ∨ ∃ g v, H .metadata = some g ∧ g.pos = hd.metadataPos ∧ hd.metadataPos ≠ 0 ∧
      ∀ d', g.good d' → readMetadataData al d'.stream hd.metadataPos = .ok v := by
    have h1 := h.metadata
    have h2 := h.metadataPos
    cases hi : w.metaSeg with
    | none =>
      rw [hi] at h1 h2
      exact Or.inl ⟨h2, h1.none.1⟩
    | some i =>
      rw [hi] at h1 h2
      obtain ⟨g, v, hg, _, e1, _, e3⟩ := h1.some
      have h2 : hd.metadataPos = i.pos := h2
      have := h.heap.low _ g hg
      exact Or.inr ⟨g, v, hg, by omega, by omega, fun d' hd' => by rw [h2]; exact e3 d' hd'⟩
  have hattDir : (hd.attDirPos = 0 ∧ H .attDir = none) ∨ ∃ g r, H .attDir = some g ∧ g.pos = hd.attDirPos ∧ hd.attDirPos ≠ 0 ∧
      ∀ d', g.good d' → readAttDir al d'.stream hd.attDirPos = .ok r := by
    obtain ⟨as', _, h2⟩ := h.attachments
    rcases h2 with ⟨e1, e2, _⟩ | ⟨g, x', e1, e2, e3, e4⟩
    · exact Or.inl ⟨e1, e2⟩
    · exact Or.inr ⟨g, _, e1, e2, e3, e4⟩
  -- positions
  have hsegs : segmentsOf ⟨hd, w.dir.subBlks.map Prod.snd, as, o⟩ =
      (slotsOf (w.dir.subBlks.map Prod.fst) (w.att.atts.map Prod.fst) (H .attDir).isSome (H .metadata).isSome).map (posIn H) := by
    unfold segmentsOf slotsOf
    dsimp only
    rw [attKey_pos has]
    rw [List.map_append, List.map_append, List.map_cons, List.map_append]
    congr 1
    · rw [List.map_map, List.map_map, List.map_map]
      apply List.map_congr_left
      intro p hp
      have hs := h.sub p.1
      rw [show w.dir.tryGet p.1 = some p.2 from mapFind_mem h.dirInv.sorted hp] at hs
      obtain ⟨g, v, hg, _, e1, _⟩ := hs.some
      exact (posIn_some hg).trans e1 |>.symm
    · congr 1
      · rw [List.map_map, List.map_map, List.map_map]
        apply List.map_congr_left
        intro p hp
        have hs := h.att p.1
        rw [show w.att.tryGet p.1 = some p.2 from mapFind_mem h.attInv.sorted hp] at hs
        obtain ⟨g, v, hg, _, e1, _⟩ := hs.some
        exact (posIn_some hg).trans e1 |>.symm
      · rw [posIn_some hgs, hgp]
        congr 1
        congr 1
        · rcases hattDir with ⟨e1, e2⟩ | ⟨g, r, e1, e2, e3, _⟩
          · rw [if_pos e1, e2]; rfl
          · rw [if_neg e3, e1, ← e2, ← posIn_some e1]; rfl
        · rcases hmeta with ⟨e1, e2⟩ | ⟨g, r, e1, e2, e3, _⟩
          · rw [if_pos e1, e2]; rfl
          · rw [if_neg e3, e1, ← e2, ← posIn_some e1]; rfl
  have hall : ∀ t ∈ slotsOf (w.dir.subBlks.map Prod.fst) (w.att.atts.map Prod.fst) (H .attDir).isSome (H .metadata).isSome, ∃ g, H t = some g := by
    intro t ht
    unfold slotsOf at ht
    rcases List.mem_append.1 ht with ht | ht
    · obtain ⟨k, hk, rfl⟩ := List.mem_map.1 ht
      obtain ⟨e, he⟩ := Option.isSome_iff_exists.1 ((mapFind_isSome h.dirInv.sorted k).1 hk)
      have hs := h.sub k
      rw [show w.dir.tryGet k = some e from he] at hs
      obtain ⟨g, _, hg, _⟩ := hs.some
      exact ⟨g, hg⟩
    · rcases List.mem_append.1 ht with ht | ht
      · obtain ⟨k, hk, rfl⟩ := List.mem_map.1 ht
        obtain ⟨e, he⟩ := Option.isSome_iff_exists.1 ((mapFind_isSome h.attInv.sorted k).1 hk)
        have hs := h.att k
        rw [show w.att.tryGet k = some e from he] at hs
        obtain ⟨g, _, hg, _⟩ := hs.some
        exact ⟨g, hg⟩
      · rcases List.mem_cons.1 ht with rfl | ht
        · exact ⟨gs, hgs⟩
        · rcases List.mem_append.1 ht with ht | ht
          · split at ht
            · rename_i hx; simp at ht; subst ht; exact Option.isSome_iff_exists.1 hx
            · cases ht
          · split at ht
            · rename_i hx; simp at ht; subst ht; exact Option.isSome_iff_exists.1 hx
            · cases ht
  refine ⟨⟨hop, ?_, ?_, ?_, ?_, ?_, ?_, ?_, ?_⟩, ?_⟩
  · rw [hsegs, List.pairwise_map]
    refine List.Pairwise.imp_of_mem ?_ (slotsOf_nodup (keys_sorted h.dirInv.sorted) (keys_sorted h.attInv.sorted) _ _)
    intro t u ht hu hne
    obtain ⟨g, hg⟩ := hall t ht
    obtain ⟨g', hg'⟩ := hall u hu
    rw [posIn_some hg, posIn_some hg', endAt_eq (h.heap.good _ g hg) (small _ g hg).1, endAt_eq (h.heap.good _ g' hg') (small _ g' hg').1]
    exact h.heap.apart t u g g' hne hg hg'
  · intro p hp
    rw [hsegs] at hp
    obtain ⟨t, ht, rfl⟩ := List.mem_map.1 hp
    obtain ⟨g, hg⟩ := hall t ht
    rw [posIn_some hg]
    exact h.heap.low t g hg
  · intro p hp
    rw [hsegs] at hp
    obtain ⟨t, ht, rfl⟩ := List.mem_map.1 hp
    obtain ⟨g, hg⟩ := hall t ht
    rw [posIn_some hg, endAt_eq (h.heap.good _ g hg) (small _ g hg).1]
    exact (small t g hg).2
  · intro e he
    obtain ⟨k, g, _, hg, e1, sb, sb', e2, e3⟩ := hsub e he
    have hgood := h.heap.good _ g hg
    refine ⟨?_, ?_, sb, sb', (e3 d hgood).1, (e3 d hgood).2, e2.symm⟩
    · rw [← e1]
      exact looksOnly hgood (small _ g hg).1 (v := .ok sb) (fun d' hd' => (e3 d' hd').1)
    · rw [← e1]
      exact looksOnly hgood (small _ g hg).1 (v := .ok sb') (fun d' hd' => (e3 d' hd').2)
  · intro e he
    obtain ⟨k, g, hg, e1, v, e3⟩ := hatt e he
    have hgood := h.heap.good _ g hg
    refine ⟨?_, v, e3 d hgood⟩
    rw [← e1]
    exact looksOnly hgood (small _ g hg).1 (v := .ok v) e3
  · intro po
    show LooksOnlyAt d hd.subDirPos (fun s => readSubDir al s po hd.subDirPos)
    rw [← hgp]
    exact looksOnly (h.heap.good _ gs hgs) (small _ gs hgs).1 (v := F po) (fun d' hd' => hF d' hd' po)
  · intro hne
    show LooksOnlyAt d hd.attDirPos (fun s => readAttDir al s hd.attDirPos)
    rcases hattDir with ⟨e1, _⟩ | ⟨g, r, e1, e2, e3, e4⟩
    · exact absurd e1 hne
    · have := looksOnly (f := fun s => readAttDir al s hd.attDirPos) (h.heap.good _ g e1) (small _ g e1).1 e4
      rwa [e2] at this
  · intro hne
    show LooksOnlyAt d hd.metadataPos (fun s => readMetadataData al s hd.metadataPos) ∧ ∃ m, readMetadataData al d.stream hd.metadataPos = .ok m
    rcases hmeta with ⟨e1, _⟩ | ⟨g, r, e1, e2, e3, e4⟩
    · exact absurd e1 hne
    · have := looksOnly (f := fun s => readMetadataData al s hd.metadataPos) (h.heap.good _ g e1) (small _ g e1).1 e4
      rw [e2] at this
      exact ⟨this, r, e4 d (h.heap.good _ g e1)⟩
  · intro p hp
    rw [hsegs] at hp
    obtain ⟨t, ht, rfl⟩ := List.mem_map.1 hp
    obtain ⟨g, hg⟩ := hall t ht
    rw [posIn_some hg, endAt_eq (h.heap.good _ g hg) (small _ g hg).1]
    exact h.heap.high t g hg

end Verif.Czi
