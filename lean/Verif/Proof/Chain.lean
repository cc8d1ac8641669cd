import Verif.Proof.ReadBack

/-! The segments of a file as a chain, and the invariant of the writer. -/

namespace Verif.Czi

open Spec

attribute [local irreducible] zeros

/-! ## Writes within a range -/

/-- All writes are within `[lo, hi)`. -/
def WithinW (lo hi : Nat) (ws : List Write) : Prop := ∀ w ∈ ws, lo ≤ w.1 ∧ w.1 + w.2.length ≤ hi

theorem WithinW.nil (lo hi : Nat) : WithinW lo hi [] := by intro w hw; cases hw

theorem WithinW.append {lo hi : Nat} {a b : List Write} (h1 : WithinW lo hi a) (h2 : WithinW lo hi b) : WithinW lo hi (a ++ b) := by
  intro w hw
  rcases List.mem_append.1 hw with h | h
  · exact h1 w h
  · exact h2 w h

theorem WithinW.mono {lo hi lo' hi' : Nat} {a : List Write} (h : WithinW lo hi a) (h1 : lo' ≤ lo) (h2 : hi ≤ hi') : WithinW lo' hi' a := by
  intro w hw
  have := h w hw
  omega

theorem Contig.within {p : Nat} {ws : List Write} {c : List UInt8} (h : Contig p ws c) : WithinW p (p + c.length) ws := by
  induction h with
  | nil p => exact WithinW.nil _ _
  | @cons p l c ws h ih =>
    intro w hw
    rw [List.length_append]
    rcases List.mem_cons.1 hw with rfl | hw
    · dsimp only; omega
    · have := ih w hw
      omega

/-- Writes elsewhere preserve the bytes. -/
theorem Holds.frame {d : Disk} {p lo hi : Nat} {c : List UInt8} {ws : List Write} (h : Holds d p c) (hw : WithinW lo hi ws)
    (hd : p + c.length ≤ lo ∨ hi ≤ p) : Holds (apply d ws) p c := by
  induction ws generalizing d with
  | nil => exact h
  | cons w ws ih =>
    have h1 := hw w (List.mem_cons_self ..)
    refine ih (h.other ?_) (fun x hx => hw x (List.mem_cons_of_mem _ hx))
    omega

theorem Holds.contig {d : Disk} {p : Nat} {ws : List Write} {c z : List UInt8} (h : Contig p ws (c ++ z)) (hc : c ≠ []) :
    Holds (apply d ws) p c := by
  rw [apply_contig h]
  exact (Holds.write (by simp [hc])).left

/-! ## Execution without faults -/

theorem performWrites_nil (d : Disk) (ws : List Write) : performWrites d ws [] = (apply d ws, true, []) := by
  induction ws generalizing d with
  | nil => rfl
  | cons w ws ih =>
    rw [performWrites, ih]
    rfl

theorem runPhases_ok {p : Phase} {ps : List Phase} {s : Sys} {ws : List Write} {w : WState} (h : p s.w = ⟨ws, .ok w⟩) :
    runPhases (p :: ps) s [] = runPhases ps ⟨w, apply s.disk ws⟩ [] := by
  rw [runPhases]
  simp only [h, performWrites_nil, if_true]

theorem runPhases_err {p : Phase} {ps : List Phase} {s : Sys} {ws : List Write} {e : WErr} (h : p s.w = ⟨ws, .error e⟩) :
    runPhases (p :: ps) s [] = (⟨s.w, apply s.disk ws⟩, some e, []) := by
  rw [runPhases]
  simp only [h, performWrites_nil, if_true]

/-! ## Chains -/

/-- What a segment is used for. -/
inductive Owner where
  | sub (a : AddInfo)
  | att (a : AddAtt)
  | metadata (m : Option MetaInfo)
  | subDir (es : Option (List Entry))
  | attDir (es : Option (List AttEntry))
  | dead

/-- A segment in the file. -/
structure Seg where
  pos : Nat
  alloc : Nat
  owner : Owner

/-- The bytes at the position of the segment that are relied on. -/
def Seg.body (g : Seg) : List UInt8 :=
  match g.owner with
  | .sub a => a.body g.pos g.alloc
  | .att a => a.body g.pos g.alloc
  | .metadata (some m) => m.body g.alloc
  | .subDir (some es) => subDirBytes g.alloc es
  | .attDir (some es) => segHeader attDirMagic g.alloc (256 + es.length * 128) ++ leInt 4 es.length
  | _ => deletedMagic ++ le 8 g.alloc

/-- Consecutive segments from `p` to `q`. -/
def Chain : Nat → List Seg → Nat → Prop
  | p, [], q => p = q
  | p, g :: gs, q => g.pos = p ∧ Chain (p + 32 + g.alloc) gs q

theorem Chain.le {p q : Nat} {gs : List Seg} (h : Chain p gs q) : p ≤ q := by
  induction gs generalizing p with
  | nil => exact Nat.le_of_eq h
  | cons g gs ih =>
    have := ih h.2
    omega

theorem Chain.mem {p q : Nat} {gs : List Seg} (h : Chain p gs q) {g : Seg} (hg : g ∈ gs) :
    p ≤ g.pos ∧ g.pos + 32 + g.alloc ≤ q := by
  induction gs generalizing p with
  | nil => cases hg
  | cons x gs ih =>
    rcases List.mem_cons.1 hg with rfl | hg
    · have := h.2.le
      have := h.1
      omega
    · have := ih h.2 hg
      omega

theorem Chain.append {p q r : Nat} {a b : List Seg} (h1 : Chain p a q) (h2 : Chain q b r) : Chain p (a ++ b) r := by
  induction a generalizing p with
  | nil => cases h1; exact h2
  | cons x a ih => exact ⟨h1.1, ih h1.2⟩

theorem Chain.split {p r : Nat} {a b : List Seg} (h : Chain p (a ++ b) r) : ∃ q, Chain p a q ∧ Chain q b r := by
  induction a generalizing p with
  | nil => exact ⟨p, rfl, h⟩
  | cons x a ih =>
    obtain ⟨q, h1, h2⟩ := ih h.2
    exact ⟨q, ⟨h.1, h1⟩, h2⟩

theorem Chain.single {p : Nat} (g : Seg) (h : g.pos = p) : Chain p [g] (p + 32 + g.alloc) := ⟨h, rfl⟩

theorem Chain.snoc {p q : Nat} {a : List Seg} (h1 : Chain p a q) (g : Seg) (h : g.pos = q) : Chain p (a ++ [g]) (q + 32 + g.alloc) :=
  h1.append (Chain.single g h)

/-- Replacing a segment by another one at the same place. -/
theorem Chain.replace {p q : Nat} {a b : List Seg} {g g' : Seg} (h : Chain p (a ++ g :: b) q) (h1 : g'.pos = g.pos) (h2 : g'.alloc = g.alloc) :
    Chain p (a ++ g' :: b) q := by
  obtain ⟨m, k1, k2⟩ := h.split
  refine k1.append ⟨h1.trans k2.1, ?_⟩
  rw [h2]
  exact k2.2

/-- Other segments are beside a given one. -/
theorem Chain.beside {p q : Nat} {a b : List Seg} {g x : Seg} (h : Chain p (a ++ g :: b) q) (hx : x ∈ a ∨ x ∈ b) :
    x.pos + 32 + x.alloc ≤ g.pos ∨ g.pos + 32 + g.alloc ≤ x.pos := by
  obtain ⟨m, k1, k2⟩ := h.split
  rcases hx with hx | hx
  · have := k1.mem hx
    have := k2.1
    omega
  · have := k2.2.mem hx
    have := k2.1
    omega

/-- The used size in the segment header is at most the allocated size. -/
def UsedOk (d : Disk) (g : Seg) : Prop := ∃ u, u ≤ g.alloc ∧ Holds d (g.pos + 24) (le 8 u)

/-- All segments are well-formed and on the disk. -/
def OnDisk (d : Disk) (gs : List Seg) : Prop :=
  ∀ g ∈ gs, g.alloc % 32 = 0 ∧ g.body.length ≤ 32 + g.alloc ∧ Holds d g.pos g.body ∧ UsedOk d g

theorem UsedOk.frame {d : Disk} {g : Seg} {lo hi : Nat} {ws : List Write} (h : UsedOk d g) (hw : WithinW lo hi ws)
    (hd : g.pos + 32 + g.alloc ≤ lo ∨ hi ≤ g.pos + 24) : UsedOk (apply d ws) g := by
  obtain ⟨u, h1, h2⟩ := h
  refine ⟨u, h1, h2.frame hw ?_⟩
  rw [le_length]
  omega

theorem OnDisk.append {d : Disk} {a b : List Seg} : OnDisk d (a ++ b) ↔ OnDisk d a ∧ OnDisk d b := by
  constructor
  · exact fun h => ⟨fun g hg => h g (List.mem_append_left _ hg), fun g hg => h g (List.mem_append_right _ hg)⟩
  · rintro ⟨h1, h2⟩ g hg
    rcases List.mem_append.1 hg with h | h
    · exact h1 g h
    · exact h2 g h

theorem OnDisk.cons {d : Disk} {g : Seg} {b : List Seg} : OnDisk d (g :: b) ↔
    (g.alloc % 32 = 0 ∧ g.body.length ≤ 32 + g.alloc ∧ Holds d g.pos g.body ∧ UsedOk d g) ∧ OnDisk d b := by
  constructor
  · exact fun h => ⟨h g (List.mem_cons_self ..), fun x hx => h x (List.mem_cons_of_mem _ hx)⟩
  · rintro ⟨h1, h2⟩ x hx
    rcases List.mem_cons.1 hx with rfl | h
    · exact h1
    · exact h2 x h

/-- Writes beyond the end or below the beginning. -/
theorem OnDisk.outside {d : Disk} {gs : List Seg} {p q lo hi : Nat} {ws : List Write} (h : OnDisk d gs) (hc : Chain p gs q)
    (hw : WithinW lo hi ws) (hout : q ≤ lo ∨ hi ≤ p) : OnDisk (apply d ws) gs := by
  intro g hg
  obtain ⟨h1, h2, h3, h4⟩ := h g hg
  have := hc.mem hg
  exact ⟨h1, h2, h3.frame hw (by omega), h4.frame hw (by omega)⟩

/-- A new segment at the end. -/
theorem OnDisk.snoc {d : Disk} {gs : List Seg} {p q : Nat} {ws : List Write} {g : Seg} {z : List UInt8} (h : OnDisk d gs) (hc : Chain p gs q)
    (hpos : g.pos = q) (hw : Contig q ws (g.body ++ z)) (hne : g.body ≠ []) (h32 : g.alloc % 32 = 0) (hlen : g.body.length ≤ 32 + g.alloc)
    (hu : ∃ u m r, u ≤ g.alloc ∧ m.length = 24 ∧ g.body ++ z = m ++ (le 8 u ++ r)) :
    OnDisk (apply d ws) (gs ++ [g]) := by
  rw [OnDisk.append]
  refine ⟨h.outside hc hw.within (.inl (Nat.le_refl _)), ?_⟩
  rw [OnDisk.cons]
  refine ⟨⟨h32, hlen, ?_, ?_⟩, by intro g hg; cases hg⟩
  · rw [hpos]
    exact Holds.contig hw hne
  · obtain ⟨u, m, r, k1, k2, k3⟩ := hu
    have hall : Holds (apply d ws) q (g.body ++ z) :=
      Holds.contig (z := []) (by rw [List.append_nil]; exact hw) (by simp [hne])
    rw [k3] at hall
    have := hall.right.left
    rw [k2, ← hpos] at this
    exact ⟨u, k1, this⟩

/-- New contents for a segment. -/
theorem OnDisk.replace {d : Disk} {a b : List Seg} {g g' : Seg} {p q : Nat} {ws : List Write} (h : OnDisk d (a ++ g :: b))
    (hc : Chain p (a ++ g :: b) q) (hw : WithinW g.pos (g.pos + 32 + g.alloc) ws) (h32 : g'.alloc % 32 = 0)
    (hlen : g'.body.length ≤ 32 + g'.alloc) (hh : Holds (apply d ws) g'.pos g'.body) (hu : UsedOk (apply d ws) g') :
    OnDisk (apply d ws) (a ++ g' :: b) := by
  have hfr : ∀ x, (x ∈ a ∨ x ∈ b) → x.alloc % 32 = 0 ∧ x.body.length ≤ 32 + x.alloc ∧ Holds (apply d ws) x.pos x.body ∧
      UsedOk (apply d ws) x := by
    intro x hx
    obtain ⟨h1, h2, h3, h4⟩ := h x (by rcases hx with h | h <;> simp [h])
    have := hc.beside hx
    exact ⟨h1, h2, h3.frame hw (by omega), h4.frame hw (by omega)⟩
  rw [OnDisk.append, OnDisk.cons]
  exact ⟨fun x hx => hfr x (.inl hx), ⟨h32, hlen, hh, hu⟩, fun x hx => hfr x (.inr hx)⟩

/-- The used size of a segment in use. -/
def Seg.used (g : Seg) : Option Nat :=
  match g.owner with
  | .sub a => some (a.usedSize - 32)
  | .att a => some (256 + a.bytes.length)
  | .metadata (some m) => some (256 + (m.xmlBytes.length + m.attBytes.length))
  | .subDir (some es) => some (128 + (es.map entryBytes).flatten.length)
  | .attDir (some es) => some (256 + es.length * 128)
  | _ => none

theorem Seg.used_split (g : Seg) {u : Nat} (h : g.used = some u) : ∃ m r, m.length = 24 ∧ g.body = m ++ (le 8 u ++ r) := by
  revert h
  unfold Seg.used Seg.body
  split <;> intro h <;> simp only [Option.some.injEq, reduceCtorEq] at h
  · rename_i a _
    subst h
    obtain ⟨z, e⟩ := a.segBytes_split g.pos g.alloc
    refine ⟨subBlockMagic ++ le 8 g.alloc, ?_, by simp, ?_⟩
    rotate_left
    · simp only [AddInfo.body, e, AddInfo.head, segHeader, List.append_assoc]
      rfl
  · subst h
    refine ⟨attMagic ++ le 8 g.alloc, ?_, by simp, ?_⟩
    rotate_left
    · simp only [AddAtt.body, AddAtt.segBytes, segHeader, List.append_assoc]
      rfl
  · subst h
    refine ⟨metadataMagic ++ le 8 g.alloc, ?_, by simp, ?_⟩
    rotate_left
    · simp only [MetaInfo.body, MetaInfo.segBytes, segHeader, List.append_assoc]
      rfl
  · subst h
    refine ⟨subDirMagic ++ le 8 g.alloc, ?_, by simp, ?_⟩
    rotate_left
    · simp only [subDirBytes, segHeader, List.append_assoc]
      rfl
  · subst h
    refine ⟨attDirMagic ++ le 8 g.alloc, ?_, by simp, ?_⟩
    rotate_left
    · simp only [segHeader, List.append_assoc]
      rfl

theorem Seg.used_snoc {g : Seg} {u : Nat} (h : g.used = some u) (hu : u ≤ g.alloc) (z : List UInt8) :
    ∃ u m r, u ≤ g.alloc ∧ m.length = 24 ∧ g.body ++ z = m ++ (le 8 u ++ r) := by
  obtain ⟨m, r, h1, h2⟩ := g.used_split h
  exact ⟨u, m, r ++ z, hu, h1, by rw [h2]; simp⟩

theorem Seg.usedOk {d : Disk} {g : Seg} {u : Nat} (h : g.used = some u) (hu : u ≤ g.alloc) (hh : Holds d g.pos g.body) : UsedOk d g := by
  obtain ⟨m, r, h1, h2⟩ := g.used_split h
  rw [h2] at hh
  have := hh.right.left
  rw [h1] at this
  exact ⟨u, hu, this⟩

end Verif.Czi
