import Verif.Proof.DocMore
import Verif.Proof.DocAtt
import Verif.Spec.ReaderWriter

/-! The segments of a document under edit, as a map from what they are for to where they are. -/

namespace Verif.Czi

open Spec

attribute [local irreducible] zeros

/-! ## Files that agree on a range -/

/-- `d'` is not shorter than `d` and has the same bytes within `[lo, hi)`. -/
def Agree (d d' : Disk) (lo hi : Nat) : Prop := d.size ≤ d'.size ∧ ∀ i, lo ≤ i → i < hi → i < d.size → d'.get i = d.get i

theorem Agree.refl (d : Disk) (lo hi : Nat) : Agree d d lo hi := ⟨Nat.le_refl _, fun _ _ _ _ => rfl⟩

theorem Agree.mono {d d' : Disk} {lo hi lo' hi' : Nat} (h : Agree d d' lo hi) (h1 : lo ≤ lo') (h2 : hi' ≤ hi) : Agree d d' lo' hi' :=
  ⟨h.1, fun i a b c => h.2 i (by omega) (by omega) c⟩

theorem Agree.trans {a b c : Disk} {lo hi : Nat} (h : Agree a b lo hi) (h' : Agree b c lo hi) : Agree a c lo hi :=
  ⟨Nat.le_trans h.1 h'.1, fun i x y z => by rw [h'.2 i x y (by have := h.1; omega), h.2 i x y z]⟩

theorem apply_agree {d : Disk} {lo hi : Nat} {ws : List Write} (h : ∀ w ∈ ws, w.1 + w.2.length ≤ lo ∨ hi ≤ w.1) : Agree d (apply d ws) lo hi := by
  induction ws generalizing d with
  | nil => exact Agree.refl d lo hi
  | cons w ws ih =>
    have h1 := h w (List.mem_cons_self ..)
    refine Agree.trans ?_ (ih (d := d.write w.1 w.2) (fun x hx => h x (List.mem_cons_of_mem _ hx)))
    exact ⟨Disk.write_size_le .., fun i a b _ => Disk.write_get_out (by omega)⟩

theorem Holds.agree {d d' : Disk} {p : Nat} {c : List UInt8} (h : Holds d p c) (ha : Agree d d' p (p + c.length)) : Holds d' p c := by
  refine ⟨Nat.le_trans h.1 ha.1, fun i hi => ?_⟩
  rw [ha.2 (p + i) (by omega) (by omega) (by have := h.1; omega), h.2 i hi]

/-! ## Segments in use -/

/-- What a segment is for. -/
inductive Slot where
  | sub (k : Int)
  | att (k : Int)
  | metadata
  | subDir
  | attDir
  deriving DecidableEq

/-- A segment in use: position, allocated size and a condition on its bytes. -/
structure LSeg where
  pos : Nat
  alloc : Nat
  good : Disk → Prop
  loc : ∀ d d', Agree d d' pos (pos + 32 + alloc) → good d → good d'
  hdr : ∀ d, good d → Holds d (pos + 16) (le 8 alloc) ∧ pos + 32 ≤ d.size

def LSeg.fin (g : LSeg) : Nat := g.pos + 32 + g.alloc

/-- Two segments do not overlap. -/
def LSeg.Apart (g g' : LSeg) : Prop := g.fin ≤ g'.pos ∨ g'.fin ≤ g.pos

theorem LSeg.Apart.symm {g g' : LSeg} (h : g.Apart g') : g'.Apart g := Or.symm h

/-- The segments in use are on the file between the file header and `top` and do not overlap. -/
structure Heap (d : Disk) (top : Nat) (H : Slot → Option LSeg) : Prop where
  good : ∀ t g, H t = some g → g.good d
  low : ∀ t g, H t = some g → 544 ≤ g.pos
  high : ∀ t g, H t = some g → g.fin ≤ top
  apart : ∀ t u g g', t ≠ u → H t = some g → H u = some g' → g.Apart g'

/-- Changing what is in one slot. -/
def put (H : Slot → Option LSeg) (s : Slot) (v : Option LSeg) : Slot → Option LSeg := fun t => if t = s then v else H t

theorem put_self (H : Slot → Option LSeg) (s : Slot) (v : Option LSeg) : put H s v s = v := by simp [put]

theorem put_other (H : Slot → Option LSeg) {s t : Slot} (v : Option LSeg) (h : t ≠ s) : put H s v t = H t := by simp [put, h]

theorem Heap.put {d d' : Disk} {top top' : Nat} {H : Slot → Option LSeg} {s : Slot} {v : Option LSeg} (h : Heap d top H)
    (hag : ∀ t g, t ≠ s → H t = some g → Agree d d' g.pos g.fin) (htop : top ≤ top')
    (hv : ∀ g, v = some g → g.good d' ∧ 544 ≤ g.pos ∧ g.fin ≤ top' ∧ ∀ t g', t ≠ s → H t = some g' → g.Apart g') :
    Heap d' top' (put H s v) := by
  constructor
  · intro t g hg
    by_cases ht : t = s
    · subst ht; rw [put_self] at hg; exact (hv g hg).1
    · rw [put_other H v ht] at hg; exact g.loc _ _ (hag t g ht hg) (h.good t g hg)
  · intro t g hg
    by_cases ht : t = s
    · subst ht; rw [put_self] at hg; exact (hv g hg).2.1
    · rw [put_other H v ht] at hg; exact h.low t g hg
  · intro t g hg
    by_cases ht : t = s
    · subst ht; rw [put_self] at hg; exact (hv g hg).2.2.1
    · rw [put_other H v ht] at hg; exact Nat.le_trans (h.high t g hg) htop
  · intro t u g g' htu hg hg'
    by_cases ht : t = s
    · subst ht
      rw [put_self] at hg
      rw [put_other H v (Ne.symm htu)] at hg'
      exact (hv g hg).2.2.2 u g' (Ne.symm htu) hg'
    · rw [put_other H v ht] at hg
      by_cases hu : u = s
      · subst hu
        rw [put_self] at hg'
        exact ((hv g' hg').2.2.2 t g ht hg).symm
      · rw [put_other H v hu] at hg'
        exact h.apart t u g g' htu hg hg'

/-! ## The physical state -/

/-- What is on the file, and where the next segment goes. -/
structure Phys (d : Disk) (hd : Header) (next : Option Nat) (last : Nat) (grown : Prop) (H : Slot → Option LSeg) (top : Nat) : Prop where
  heap : Heap d top H
  header : readHeader d.stream = .ok hd
  size : 544 ≤ d.size
  low : 544 ≤ top
  next_some : ∀ n, next = some n → 544 ≤ n ∧ n ≤ top ∧ (¬ grown → n = top) ∧ ∀ g, H .metadata = some g → g.fin ≤ n
  next_none : next = none → ∃ a, Holds d (last + 16) (le 8 a) ∧ last + 32 ≤ d.size ∧ last + 32 + a = top ∧
    ∀ t g, H t = some g → (g.pos = last ∧ g.alloc = a) ∨ g.fin ≤ last

theorem readHeader_agree {d d' : Disk} {hd : Header} (h : readHeader d.stream = .ok hd) (hs : 544 ≤ d.size) (ha : Agree d d' 0 544) :
    readHeader d'.stream = .ok hd := by
  have e : d'.read 0 544 = d.read 0 544 := by
    have hs' := ha.1
    unfold Disk.read
    rw [show min 544 (d'.size - 0) = 544 by omega, show min 544 (d.size - 0) = 544 by omega]
    apply List.map_congr_left
    intro i hi
    rw [List.mem_range] at hi
    exact ha.2 (0 + i) (by omega) (by omega) (by omega)
  have e2 : readHeader d'.stream = readHeader d.stream := by
    unfold readHeader readExact Disk.stream
    rw [e]
  rw [e2, h]

/-- Changing a segment in its place, or giving it up. -/
theorem Phys.inPlace {d : Disk} {hd : Header} {next : Option Nat} {last : Nat} {grown : Prop} {H : Slot → Option LSeg} {top : Nat} {t : Slot} {g : LSeg}
    {ws : List Write} {v : Option LSeg} (h : Phys d hd next last grown H top) (hg : H t = some g) (hw : WithinW g.pos g.fin ws)
    (ha : Holds (apply d ws) (g.pos + 16) (le 8 g.alloc))
    (hv : ∀ g', v = some g' → g'.pos = g.pos ∧ g'.alloc = g.alloc ∧ g'.good (apply d ws)) :
    Phys (apply d ws) hd next last grown (put H t v) top := by
  have hag : ∀ u g', u ≠ t → H u = some g' → Agree d (apply d ws) g'.pos g'.fin := by
    intro u g' hu hg'
    apply apply_agree
    intro w hw'
    have h1 := hw w hw'
    rcases h.heap.apart u t g' g hu hg' hg with h2 | h2 <;> omega
  have h544 := h.heap.low t g hg
  have hag0 : Agree d (apply d ws) 0 544 := apply_agree (fun w hw' => by have := hw w hw'; omega)
  refine ⟨h.heap.put hag (Nat.le_refl _) ?_, readHeader_agree h.header h.size hag0, Nat.le_trans h.size hag0.1, h.low, ?_, ?_⟩
  rotate_left
  · intro n hn
    obtain ⟨a1, a2, a3, a4⟩ := h.next_some n hn
    refine ⟨a1, a2, a3, ?_⟩
    intro g' hg'
    by_cases ht : Slot.metadata = t
    · subst ht
      rw [put_self] at hg'
      obtain ⟨e1, e2, _⟩ := hv g' hg'
      have := a4 g hg
      unfold LSeg.fin at *
      omega
    · rw [put_other H v ht] at hg'
      exact a4 g' hg'
  rotate_left
  · intro g' hg'
    obtain ⟨h1, h2, h3⟩ := hv g' hg'
    have hf : g'.fin = g.fin := by unfold LSeg.fin; rw [h1, h2]
    refine ⟨h3, by omega, by rw [hf]; exact h.heap.high t g hg, ?_⟩
    intro u x hu hx
    have := h.heap.apart t u g x (Ne.symm hu) hg hx
    unfold LSeg.Apart at *
    rw [hf, h1]
    exact this
  · intro hn
    obtain ⟨a, h1, h2, h3, h4⟩ := h.next_none hn
    refine ⟨a, ?_, Nat.le_trans h2 hag0.1, h3, ?_⟩
    · rcases h4 t g hg with ⟨e1, e2⟩ | h5
      · rw [← e1, ← e2]; exact ha
      · refine h1.agree ?_
        apply apply_agree
        intro w hw'
        have := hw w hw'
        omega
    · intro u x hx
      by_cases hu : u = t
      · subst hu
        rw [put_self] at hx
        obtain ⟨e1, e2, _⟩ := hv x hx
        rcases h4 u g hg with ⟨f1, f2⟩ | h5
        · exact Or.inl ⟨by omega, by omega⟩
        · refine Or.inr ?_
          unfold LSeg.fin at *
          omega
      · rw [put_other H v hu] at hx
        exact h4 u x hx

/-- Adding a segment at the end; the segment that was in its slot may be marked. -/
theorem Phys.append {d : Disk} {hd : Header} {last : Nat} {grown grown' : Prop} {H : Slot → Option LSeg} {top top' n n' : Nat} {t : Slot} {g : LSeg}
    {ws : List Write} (h : Phys d hd (some n) last grown H top) (hn : n = top) (hpos : g.pos = n) (hfin : g.fin ≤ top')
    (hw : ∀ w ∈ ws, n ≤ w.1 ∨ ∃ g0, H t = some g0 ∧ g0.pos ≤ w.1 ∧ w.1 + w.2.length ≤ g0.fin)
    (hgood : g.good (apply d ws)) (hn' : n ≤ n' ∧ n' ≤ top' ∧ (¬ grown' → n' = top')) (hm : t = .metadata → g.fin ≤ n') :
    Phys (apply d ws) hd (some n') last grown' (put H t (some g)) top' := by
  have hag : ∀ u g', u ≠ t → H u = some g' → Agree d (apply d ws) g'.pos g'.fin := by
    intro u g' hu hg'
    apply apply_agree
    intro w hw'
    have h3 := h.heap.high u g' hg'
    rcases hw w hw' with h1 | ⟨g0, h1, h2⟩
    · right; omega
    · rcases h.heap.apart u t g' g0 hu hg' h1 with h4 | h4 <;> omega
  have h544 := (h.next_some n rfl).1
  have hag0 : Agree d (apply d ws) 0 544 := apply_agree (fun w hw' => by
    rcases hw w hw' with h1 | ⟨g0, h1, h2⟩
    · right; omega
    · have := h.heap.low t g0 h1; omega)
  have hge : g.pos ≤ g.fin := by unfold LSeg.fin; omega
  refine ⟨h.heap.put hag (by omega) ?_, readHeader_agree h.header h.size hag0, Nat.le_trans h.size hag0.1, by omega, ?_, by intro hc; cases hc⟩
  · intro g' hg'
    cases hg'
    refine ⟨hgood, by omega, hfin, ?_⟩
    intro u x hu hx
    have h3 := h.heap.high u x hx
    right
    omega
  · intro m hm'
    cases hm'
    refine ⟨by omega, hn'.2.1, hn'.2.2, ?_⟩
    intro g' hg'
    by_cases ht : Slot.metadata = t
    · subst ht
      rw [put_self] at hg'
      cases hg'
      exact hm rfl
    · rw [put_other H _ ht] at hg'
      have := h.heap.high _ g' hg'
      omega

/-- `grown` may be assumed at any time. -/
theorem Phys.weaken {d : Disk} {hd : Header} {next : Option Nat} {last : Nat} {grown grown' : Prop} {H : Slot → Option LSeg} {top : Nat}
    (h : Phys d hd next last grown H top) (hg : grown → grown') : Phys d hd next last grown' H top :=
  ⟨h.heap, h.header, h.size, h.low, fun n hn => by
    obtain ⟨a1, a2, a3, a4⟩ := h.next_some n hn
    exact ⟨a1, a2, fun x => a3 (fun y => x (hg y)), a4⟩, h.next_none⟩

end Verif.Czi
