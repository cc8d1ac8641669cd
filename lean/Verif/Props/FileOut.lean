import Verif.Proof.FileOut
import Verif.Props.Crash

/-!
# C94: files are created, kept or overwritten as asked, and what is reported as written is in the file
-/

namespace Verif
open Spec Czi

/-! ## Opening -/

/-- **C94 (opening for output, `pwrite`).** For all files there are: without leave to overwrite, an existing file makes the call fail and stays as it is,
readable or not. In every case: if the call fails, all files are as before; if it succeeds, the file is there and empty, and all others are as before. -/
theorem C94_open (mayCreate overwriteExisting : Bool) (fs : Files) (p : List Char) :
    (overwriteExisting = false → (fs p).isSome → openPwrite mayCreate fs p overwriteExisting = (fs, false)) ∧
    ((openPwrite mayCreate fs p overwriteExisting).2 = false → (openPwrite mayCreate fs p overwriteExisting).1 = fs) ∧
    ((openPwrite mayCreate fs p overwriteExisting).2 = true →
      ((openPwrite mayCreate fs p overwriteExisting).1 p).map (·.data) = some Disk.empty ∧ OthersSame fs (openPwrite mayCreate fs p overwriteExisting).1 p) ∧
    (∀ f, overwriteExisting = true → fs p = some f → f.writable = true → (openPwrite mayCreate fs p overwriteExisting).2 = true) ∧
    (mayCreate = true → fs p = none → (openPwrite mayCreate fs p overwriteExisting).2 = true) := by
  unfold openPwrite posixOpenOut
  cases hf : fs p with
  | none =>
    dsimp only
    cases mayCreate
    · refine ⟨by simp, by simp, by simp, by simp, by simp⟩
    · refine ⟨by simp, by simp, fun _ => ⟨?_, ?_⟩, by simp, by simp⟩
      · simp [Files.set, FileSt.new]
      · intro q hq; simp [Files.set, hq]
  | some f =>
    dsimp only
    cases overwriteExisting
    · refine ⟨by simp, by simp, by simp, by simp, by simp⟩
    · rw [if_neg (by simp)]
      cases hw : f.writable
      · refine ⟨by simp, by simp, by simp, ?_, by simp⟩
        intro g _ hg hg'
        injection hg with hg
        subst hg
        rw [hw] at hg'
        cases hg'
      · refine ⟨by simp, by simp, fun _ => ⟨?_, ?_⟩, by simp, by simp⟩
        · simp [Files.set]
        · intro q hq; simp [Files.set, hq]

/-- **C94 (opening for output, C library; partial: files that can be read, and no other process).** Without leave to overwrite, an existing file that can be read
makes the call fail and stays as it is. -/
theorem C94_open_stdio_partial (others : Files → Files) (mayCreate : Bool) (fs : Files) (p : List Char) (f : FileSt) (h : fs p = some f) (hr : f.readable = true) :
    openStdio others mayCreate fs p false = (fs, false) := by
  unfold openStdio
  rw [h, if_pos (by simp [hr])]

/-- **C94 violated (opening, C library).** Without leave to overwrite, every existing file that may be written but not read is emptied; and so is every file
that another process makes after the library has looked for it. -/
theorem C94_open_stdio_violated (mayCreate : Bool) (fs : Files) (p : List Char) (f : FileSt) (hw : f.writable = true) :
    (fs p = some f → f.readable = false →
      (openStdio id mayCreate fs p false).2 = true ∧ ((openStdio id mayCreate fs p false).1 p).map (·.data) = some Disk.empty) ∧
    (fs p = none → ∀ others : Files → Files, others fs p = some f →
      (openStdio others mayCreate fs p false).2 = true ∧ ((openStdio others mayCreate fs p false).1 p).map (·.data) = some Disk.empty) := by
  constructor
  · intro h hr
    unfold openStdio posixOpenOut
    simp [h, hr, hw, Files.set]
  · intro h others ho
    unfold openStdio posixOpenOut
    simp [h, ho, hw, Files.set]

/-- **C94 (opening for editing, `pread`/`pwrite`).** No existing file is changed by opening it. A file that is not there is made, empty. -/
theorem C94_open_edit (mayCreate : Bool) (fs : Files) (p : List Char) :
    (∀ q f, fs q = some f → (openEdit mayCreate fs p).1 q = some f) ∧ OthersSame fs (openEdit mayCreate fs p).1 p ∧
    ((openEdit mayCreate fs p).2 = true → ∃ f, (openEdit mayCreate fs p).1 p = some f ∧ f.readable = true ∧ f.writable = true ∧ (fs p = none → f.data = Disk.empty)) := by
  unfold openEdit
  cases hf : fs p with
  | none =>
    dsimp only
    cases mayCreate
    · exact ⟨fun q f h => h, fun q _ => rfl, fun h => by cases h⟩
    · refine ⟨fun q f h => ?_, fun q hq => by simp [Files.set, hq], fun _ => ⟨FileSt.new, by simp [Files.set], rfl, rfl, fun _ => rfl⟩⟩
      have : q ≠ p := by rintro rfl; rw [hf] at h; cases h
      simp [Files.set, this, h]
  | some f =>
    refine ⟨fun q f h => h, fun q _ => rfl, fun h => ⟨f, hf, ?_⟩⟩
    simp only [Bool.and_eq_true] at h
    exact ⟨h.1, h.2, fun h => by cases h⟩

/-! ## Writing -/

/-- **C94 (writing, `pwrite`).** For every file, every sequence of writes and whatever the operating system answers: if every call reports all its bytes as
written, the file contains what all of them wrote. -/
theorem C94_written (d : Disk) (xs : List (Write × Option Nat)) (h : AllComplete (xs.map (·.1)) (pwriteRun d xs).2) :
    (pwriteRun d xs).1 = apply d (xs.map (·.1)) := pwriteRun_complete xs d h

/-- **C94 (writing, C library; partial: all but the last write).** For every file, every sequence of writes and whatever the C library and the operating system
answer: if every call reports all its bytes as written, then after closing, the file is as after a crash during the last write at the worst: all other writes
are in it, and a beginning of the last one. If `fclose` succeeds, everything is in it. Missing: that the caller learns of it if not, see
`C94_lost_violated`. -/
theorem C94_written_stdio_partial (d : Disk) (xs : List (Write × StdAnswer)) (close : Option Nat) (h : AllComplete (xs.map (·.1)) (stdRun ⟨d, none⟩ xs).2) :
    (∃ j, stdClose (stdRun ⟨d, none⟩ xs).1 close = apply d (cut (xs.map (·.1)) (xs.length - 1) j)) ∧
    (((stdRun ⟨d, none⟩ xs).1.flush close).2 = true → stdClose (stdRun ⟨d, none⟩ xs).1 close = apply d (xs.map (·.1))) := by
  cases xs with
  | nil => exact ⟨⟨0, rfl⟩, fun _ => rfl⟩
  | cons x xs =>
    obtain ⟨ws, w, e, hb⟩ := stdRun_buffered xs x ⟨d, none⟩ d (fun _ _ => rfl) h
    have hl : (x :: xs).length - 1 = ws.length := by
      have := congrArg List.length e
      rw [List.length_map, List.length_append, List.length_singleton] at this
      omega
    rw [e, hl]
    constructor
    · obtain ⟨j, hj⟩ := hb.flush_any close
      refine ⟨j, ?_⟩
      rw [cut_last, apply_append]
      exact hj
    · intro hok
      unfold stdClose
      rw [hb.flush_ok hok, apply_append]
      rfl

/-- Answers with which every byte is accepted, into the buffer. -/
private def buffering (w : Write) : StdAnswer := ⟨none, true, w.2.length, 0⟩

private theorem stdRun_buffering : ∀ (ws : List Write) (s : StdFile), (∀ w ∈ ws, w.1 < 2 ^ 63) →
    AllComplete ws (stdRun s (ws.map (fun w => (w, buffering w)))).2
  | [], s, _ => rfl
  | w :: r, s, h => by
    have hok : (s.flush none).2 = true := by
      unfold StdFile.flush
      cases s.pending <;> rfl
    have h1 : (stdWrite (buffering w) s w).2 = some w.2.length := by
      unfold stdWrite
      rw [if_pos (by rw [show (buffering w).flush = none from rfl, hok, decide_eq_true (h w List.mem_cons_self)]; rfl)]
      simp [buffering]
    show (stdWrite (buffering w) s w).2 :: (stdRun _ _).2 = some w.2.length :: _
    rw [h1, stdRun_buffering r _ (fun x hx => h x (List.mem_cons_of_mem _ hx))]

private theorem stdRun_append (a b : List (Write × StdAnswer)) : ∀ s, (stdRun s (a ++ b)).1 = (stdRun (stdRun s a).1 b).1 := by
  induction a with
  | nil => intro s; rfl
  | cons x a ih => intro s; exact ih _

/-- **C94 violated (writing, C library).** For every sequence of writes the C library and the operating system can answer so that every call reports success, and
yet the last write is lost when the file is closed. -/
theorem C94_lost_violated (d : Disk) (ws : List Write) (w : Write) (h : ∀ x ∈ ws ++ [w], x.1 < 2 ^ 63) :
    ∃ xs : List (Write × StdAnswer), xs.map (·.1) = ws ++ [w] ∧ AllComplete (ws ++ [w]) (stdRun ⟨d, none⟩ xs).2 ∧
      stdClose (stdRun ⟨d, none⟩ xs).1 (some 0) = apply d ws := by
  have hx : ((ws ++ [w]).map (fun w => (w, buffering w))).map (·.1) = ws ++ [w] := by
    rw [List.map_map]
    exact List.map_id _
  refine ⟨(ws ++ [w]).map (fun w => (w, buffering w)), hx, stdRun_buffering _ _ h, ?_⟩
  have hc := stdRun_buffering ws ⟨d, none⟩ (fun x hx => h x (List.mem_append_left _ hx))
  have hws : (ws.map (fun w => (w, buffering w))).map (·.1) = ws := by
    rw [List.map_map]
    exact List.map_id _
  have hfl : ((stdRun ⟨d, none⟩ (ws.map (fun w => (w, buffering w)))).1.flush none).2 = true := by
    unfold StdFile.flush
    cases (stdRun ⟨d, none⟩ (ws.map (fun w => (w, buffering w)))).1.pending <;> rfl
  have hd := (C94_written_stdio_partial d (ws.map (fun w => (w, buffering w))) none (by rw [hws]; exact hc)).2 hfl
  rw [hws] at hd
  rw [List.map_append, stdRun_append]
  generalize (stdRun ⟨d, none⟩ (ws.map (fun w => (w, buffering w)))).1 = s at hfl hd
  show stdClose (stdWrite (buffering w) s w).1 (some 0) = _
  have hw : (stdWrite (buffering w) s w).1 = ⟨(s.flush none).1.disk, if w.2.length ≤ 0 then none else some (w.1, w.2)⟩ := by
    unfold stdWrite
    rw [if_pos (by rw [show (buffering w).flush = none from rfl, hfl, decide_eq_true (h w (List.mem_append_right _ List.mem_cons_self))]; rfl)]
    simp [buffering, write_nil]
  rw [hw, ← hd]
  unfold stdClose StdFile.flush
  by_cases h0 : w.2.length ≤ 0
  · rw [if_pos h0]
  · rw [if_neg h0]
    dsimp only
    rw [List.take_zero, write_nil]

/-- **C94 violated (documents, C library).** Every document can be lost in this way: every write that the writer issues from `Create` to `Close` is reported as complete,
so that `Close` returns normally, and the file cannot be opened afterwards. -/
theorem C94_document_lost_violated (dup : Bool) (info : WriterInfo) (ops : List WOp) (hi : InfoOk info) (hops : OpsOk ops)
    (hs : ∀ x ∈ docTrace dup info ops, x.1 < 2 ^ 63) :
    ∃ xs : List (Write × StdAnswer), xs.map (·.1) = docTrace dup info ops ∧ AllComplete (docTrace dup info ops) (stdRun ⟨Disk.empty, none⟩ xs).2 ∧
      ∀ al o doc, openDoc al (stdClose (stdRun ⟨Disk.empty, none⟩ xs).1 (some 0)).stream o ≠ .ok doc := by
  have hne : docTrace dup info ops ≠ [] := (lost_not_open dup info ops hi hops).1
  have hlast := List.dropLast_append_getLast hne
  obtain ⟨xs, h1, h2, h3⟩ := C94_lost_violated Disk.empty (docTrace dup info ops).dropLast ((docTrace dup info ops).getLast hne) (by rw [hlast]; exact hs)
  rw [hlast] at h1 h2
  refine ⟨xs, h1, h2, fun al o doc => ?_⟩
  rw [h3]
  exact (lost_not_open dup info ops hi hops).2 al o doc

/-- **C94 violated (editing, C library).** The input-output stream on a C `FILE` opens the file with the mode `rwb`, which does not allow writing: no call ever
changes the file, and none of at least one byte reports its bytes as written. -/
theorem C94_edit_violated (a : StdAnswer) (s : StdFile) (w : Write) (hw : w.2 ≠ []) :
    (editWrite a s w).1 = s ∧ (editWrite a s w).2 ≠ some w.2.length := by
  have : fopenMode editMode = some (true, false) := by decide
  unfold editWrite
  rw [this]
  dsimp only
  split
  · refine ⟨rfl, fun h => ?_⟩
    injection h with h
    exact hw (List.length_eq_zero_iff.1 h.symm)
  · exact ⟨rfl, by simp⟩

/-! ## The hypotheses are met -/

private def exDisk : Disk := Disk.empty.write 0 [1, 2, 3]

/-- A file that may not be read, and one that may. -/
private def exFiles : Files := fun p => if p = ['a'] then some ⟨exDisk, false, true⟩ else if p = ['b'] then some ⟨exDisk, true, true⟩ else none

example : exFiles ['a'] = some ⟨exDisk, false, true⟩ ∧ exFiles ['b'] = some ⟨exDisk, true, true⟩ ∧ exFiles ['c'] = none := ⟨rfl, rfl, rfl⟩

/-- A document with sub-blocks, an attachment and metadata. -/
example : InfoOk exInfo ∧ OpsOk exOps ∧ ∀ x ∈ docTrace false exInfo exOps, x.1 < 2 ^ 63 := ⟨exInfo_ok, exOps_ok, by decide +kernel⟩

/-- The first write is split between buffer and file; the second stays in the buffer; one byte of it is lost when the file is closed. -/
private def exCalls : List (Write × StdAnswer) := [((0, [1, 2, 3]), ⟨none, true, 3, 2⟩), ((3, [4, 5]), ⟨none, true, 9, 0⟩)]

example : AllComplete (exCalls.map (·.1)) (stdRun ⟨Disk.empty, none⟩ exCalls).2 ∧
    (stdClose (stdRun ⟨Disk.empty, none⟩ exCalls).1 (some 1)).read 0 10 = [1, 2, 3, 4] ∧
    (stdClose (stdRun ⟨Disk.empty, none⟩ exCalls).1 none).read 0 10 = [1, 2, 3, 4, 5] := by
  refine ⟨by unfold AllComplete; decide +kernel, by decide +kernel, by decide +kernel⟩

example : AllComplete [(0, [1, 2, 3])] (pwriteRun exDisk [((0, [1, 2, 3]), some 7)]).2 ∧ ¬ AllComplete [(0, [1, 2, 3])] (pwriteRun exDisk [((0, [1, 2, 3]), some 2)]).2 := by
  unfold AllComplete
  exact ⟨by decide +kernel, by decide +kernel⟩

end Verif
