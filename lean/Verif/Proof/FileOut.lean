import Verif.Proof.Crash2
import Verif.Spec.FileOut

namespace Verif
open Spec Czi

theorem pwriteRun_complete : ∀ (xs : List (Write × Option Nat)) (d : Disk), AllComplete (xs.map (·.1)) (pwriteRun d xs).2 →
    (pwriteRun d xs).1 = apply d (xs.map (·.1))
  | [], d, _ => rfl
  | (w, a) :: r, d, h => by
    unfold AllComplete at h
    rw [show (pwriteRun d ((w, a) :: r)).2 = (pwriteWrite a d w).2 :: (pwriteRun (pwriteWrite a d w).1 r).2 from rfl, List.map_cons, List.map_cons,
      List.cons.injEq] at h
    have h1 : (pwriteWrite a d w).1 = d.write w.1 w.2 := by
      have h0 := h.1
      unfold pwriteWrite at h0 ⊢
      split at h0
      · cases h0
      · rename_i hlt
        rw [if_neg hlt]
        cases a with
        | none => cases h0
        | some n =>
          dsimp only at h0 ⊢
          injection h0 with h0
          rw [List.take_of_length_le (by omega)]
    show (pwriteRun (pwriteWrite a d w).1 r).1 = apply (d.write w.1 w.2) _
    rw [h1]
    rw [h1] at h
    exact pwriteRun_complete r _ h.2

theorem write_nil (d : Disk) (p : Nat) : d.write p [] = d := by
  unfold Disk.write
  rw [if_pos rfl]
  congr
  funext i
  rw [if_neg (by rw [List.length_nil]; omega)]

/-- The buffer of a file whose last write is `w`: what has to be written yet is the rest of it. -/
def Buffered (d : Disk) (w : Write) (s : StdFile) : Prop :=
  ∃ n, s.disk = d.write w.1 (w.2.take n) ∧ ((s.pending = none ∧ w.2.length ≤ n) ∨ s.pending = some (w.1 + n, w.2.drop n) ∧ n ≤ w.2.length)

theorem Buffered.flush_ok {d : Disk} {w : Write} {s : StdFile} (h : Buffered d w s) {a : Option Nat} (hok : (s.flush a).2 = true) :
    (s.flush a).1 = ⟨d.write w.1 w.2, none⟩ := by
  obtain ⟨n, h1, ⟨h2, h3⟩ | ⟨h2, h3⟩⟩ := h
  · obtain ⟨sd, sp⟩ := s
    dsimp only at h1 h2
    subst h2
    rw [h1]
    unfold StdFile.flush
    dsimp only
    rw [List.take_of_length_le h3]
  · unfold StdFile.flush at hok ⊢
    rw [h2] at hok ⊢
    dsimp only at hok ⊢
    cases a with
    | none =>
      dsimp only
      rw [h1]
      have := Disk.write_write d w.1 (w.2.take n) (w.2.drop n)
      rw [List.length_take, Nat.min_eq_left h3, List.take_append_drop] at this
      rw [this]
    | some k => cases hok

/-- What is in the file if the buffer could be emptied only in part: the beginning of the last write. -/
theorem Buffered.flush_any {d : Disk} {w : Write} {s : StdFile} (h : Buffered d w s) (a : Option Nat) :
    ∃ j, (s.flush a).1.disk = d.write w.1 (w.2.take j) := by
  cases hok : (s.flush a).2 with
  | true =>
    rw [h.flush_ok hok]
    exact ⟨w.2.length, by rw [List.take_length]⟩
  | false =>
    obtain ⟨n, h1, ⟨h2, h3⟩ | ⟨h2, h3⟩⟩ := h
    · unfold StdFile.flush at hok; rw [h2] at hok; cases hok
    · unfold StdFile.flush at hok ⊢
      rw [h2] at hok ⊢
      cases a with
      | none => cases hok
      | some k =>
        refine ⟨n + k, ?_⟩
        dsimp only
        rw [h1]
        have := Disk.write_write d w.1 (w.2.take n) ((w.2.drop n).take k)
        rw [List.length_take, Nat.min_eq_left h3] at this
        rw [this, List.take_add]

theorem stdWrite_buffered {a : StdAnswer} {s : StdFile} {w : Write} {d : Disk} (hf : (s.flush a.flush).2 = true → (s.flush a.flush).1.disk = d)
    (h : (stdWrite a s w).2 = some w.2.length) : Buffered d w (stdWrite a s w).1 := by
  unfold stdWrite at h ⊢
  split at h
  · rename_i hc
    rw [if_pos hc]
    simp only [Bool.and_eq_true] at hc
    rw [hf hc.1.1]
    dsimp only at h ⊢
    injection h with h
    have hl : w.2.take a.accepted = w.2 := by
      rw [List.length_take] at h
      exact List.take_of_length_le (by omega)
    rw [hl]
    refine ⟨a.now, rfl, ?_⟩
    by_cases hn : w.2.length ≤ a.now
    · exact Or.inl ⟨if_pos hn, hn⟩
    · exact Or.inr ⟨if_neg hn, by omega⟩
  · cases h

theorem stdRun_buffered : ∀ (xs : List (Write × StdAnswer)) (x : Write × StdAnswer) (s : StdFile) (d : Disk),
    (∀ f, (s.flush f).2 = true → (s.flush f).1.disk = d) → AllComplete ((x :: xs).map (·.1)) (stdRun s (x :: xs)).2 →
    ∃ ws w, (x :: xs).map (·.1) = ws ++ [w] ∧ Buffered (apply d ws) w (stdRun s (x :: xs)).1
  | [], x, s, d, hf, h => by
    unfold AllComplete at h
    rw [show (stdRun s [x]).2 = [(stdWrite x.2 s x.1).2] from rfl, List.map_cons, List.map_cons, List.cons.injEq] at h
    exact ⟨[], x.1, rfl, stdWrite_buffered (hf _) h.1⟩
  | y :: xs, x, s, d, hf, h => by
    unfold AllComplete at h
    rw [show (stdRun s (x :: y :: xs)).2 = (stdWrite x.2 s x.1).2 :: (stdRun (stdWrite x.2 s x.1).1 (y :: xs)).2 from rfl, List.map_cons,
      List.map_cons (l := List.map _ (y :: xs)), List.cons.injEq] at h
    have hb := stdWrite_buffered (hf x.2.flush) h.1
    obtain ⟨ws, w, e1, e2⟩ := stdRun_buffered xs y (stdWrite x.2 s x.1).1 (d.write x.1.1 x.1.2) (fun f hok => by rw [hb.flush_ok hok]) h.2
    refine ⟨x.1 :: ws, w, ?_, e2⟩
    rw [List.map_cons, e1]
    rfl

theorem cut_last (ws : List Write) (w : Write) (j : Nat) : cut (ws ++ [w]) ws.length j = ws ++ [(w.1, w.2.take j)] := by
  unfold cut
  rw [List.take_left, List.drop_left]
  rfl

/-- A document whose last write is lost does not open. -/
theorem lost_not_open (dup : Bool) (info : WriterInfo) (ops : List WOp) (hi : InfoOk info) (hops : OpsOk ops) :
    docTrace dup info ops ≠ [] ∧ ∀ (al : Alloc) (o : OpenOptions) (doc : Doc), openDoc al (apply Disk.empty (docTrace dup info ops).dropLast).stream o ≠ .ok doc := by
  obtain ⟨d, done, e, segs, q, sp, mp, ap, dir, att, hw⟩ := writeDoc_written dup Disk.empty info ops hi hops
  have hkeep : ∀ s, (session (step ⟨WState.init dup, Disk.empty⟩ (.create info)).1 ops).1 = s → s.w.info = some info := by
    intro s hs
    obtain ⟨s0, segs0, e1, hinv, hn, _⟩ := step_create dup Disk.empty info hi
    have hos : opsSize ops = (ops.map opBytes).sum + 4096 * ops.length := rfl
    have hlen := hops.count
    have htot := hops.total
    obtain ⟨segs, hinv2, _, _⟩ := session_inv ops hinv hops.each (by omega)
    rw [e1] at hs
    rw [← hs]
    exact hinv2.operational
  obtain ⟨mid, x, y, z, htr, hmid⟩ := docTrace_shape e hops.each hkeep
  have hne : fileHeader info.guid 0 0 0 ≠ [] := by
    intro h
    have := congrArg List.length h
    rw [fileHeader_length] at this
    cases this
  rw [htr, ← List.cons_append, List.dropLast_concat]
  refine ⟨by simp, ?_⟩
  have h0 : Holds (apply Disk.empty ((0, fileHeader info.guid 0 0 0) :: mid)) 0 (fileHeader info.guid 0 0 0) := by
    obtain ⟨h', hw'⟩ := low_within hmid
    show Holds (apply (Disk.empty.write 0 _) mid) 0 _
    exact (Holds.write hne).frame hw' (.inl (by rw [fileHeader_length]))
  exact fun al o doc => open_fails h0 (by omega) (by omega) al o doc

end Verif
