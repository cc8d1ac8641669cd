import Verif.Proof.Streams

/-!
# C84: streams deliver the bytes of their source
-/

namespace Verif

open Verif.Czi Verif.Streams Verif.Spec

/-! ## Files -/

/-- **C84 (files, `pread`).** For every file, offset and size: an offset no file can have gives an exception; otherwise the bytes delivered are the first of those
at this offset, and all of them unless the operating system delivers fewer than asked for. Reading at the end of the file or beyond delivers nothing, and is no
error. Missing: see `C84_short_violated`. -/
theorem C84_pread_partial (file : List UInt8) (most offset size : Nat) :
    (2 ^ 63 ≤ offset → preadRead file most offset size = none) ∧
    (offset < 2 ^ 63 → ∃ l, preadRead file most offset size = some l ∧ l <+: bytesAt file offset size ∧
      ((bytesAt file offset size).length ≤ most → l = bytesAt file offset size) ∧ (file.length ≤ offset → l = [])) := by
  refine ⟨fun h => if_pos h, fun h => ⟨_, if_neg (by omega), ?_, ?_, ?_⟩⟩
  · exact List.take_prefix _ _
  · intro k; exact List.take_of_length_le k
  · intro k; rw [List.drop_eq_nil_of_le k]; simp

/-- **C84 violated (short reads).** Whatever the number of bytes the operating system delivers at most (2147479552 on Linux), there is a file that is not
delivered completely: the rest is not asked for. -/
theorem C84_short_violated (most : Nat) : ∃ file offset size, offset + size ≤ file.length ∧ ∃ l, preadRead file most offset size = some l ∧ l.length < size := by
  refine ⟨List.replicate (most + 1) 0, 0, most + 1, by simp, _, if_neg (by decide), ?_⟩
  simp only [List.drop_zero, List.length_take, List.length_replicate]
  omega

example : preadRead [1, 2, 3, 4, 5] 100 1 3 = some [2, 3, 4] ∧ preadRead [1, 2, 3, 4, 5] 100 3 3 = some [4, 5] ∧ preadRead [1, 2, 3, 4, 5] 100 5 3 = some [] ∧
    preadRead [1, 2, 3, 4, 5] 2 1 3 = some [2, 3] := by decide +kernel

/-- **C84 (files, C library, with a mutex).** For every file, for any number of threads with any calls, for every schedule, and wherever the file is positioned
before: the results of the calls each thread has made are those of the bytes at the offset of the call, whatever the other threads do. A thread that has made all
its calls has the results of all of them. -/
theorem C84_threads (file : List UInt8) (pos : Nat) (calls : Nat → List Req) (sched : List Nat) (i : Nat) :
    ((run file true (start pos calls) sched).threads i).results <+: (calls i).map (readResult file) ∧
    (((run file true (start pos calls) sched).threads i).calls = [] →
      ((run file true (start pos calls) sched).threads i).results = (calls i).map (readResult file)) := by
  have h := run_ok (file := file) sched (start_ok file pos calls) i
  obtain ⟨b, e1, e2⟩ := h.results
  refine ⟨?_, ?_⟩
  · rw [e2, e1, List.map_append]
    refine List.prefix_append_right_inj _ |>.2 ?_
    split
    · rw [List.map_take]; exact List.take_prefix _ _
    · exact List.nil_prefix
  · intro hn
    rw [hn] at e1 e2
    rw [e2, e1]
    simp

/-- **C84 (files, C library, no deadlock).** After every schedule, every thread can make all its calls: also if calls of other threads have failed. -/
theorem C84_no_deadlock (file : List UInt8) (pos : Nat) (calls : Nat → List Req) (sched : List Nat) (i : Nat) :
    ∃ more, ((run file true (start pos calls) (sched ++ more)).threads i).calls = [] := by
  have h := run_ok (file := file) sched (start_ok file pos calls)
  have ho : OwnerOk (run file true (start pos calls) sched) := run_owner sched (start_ok file pos calls) (fun i hi => by cases hi)
  cases hown : (run file true (start pos calls) sched).owner with
  | none =>
    obtain ⟨more, hm⟩ := finish_all _ (i := i) h ho hown (Nat.le_refl _)
    exact ⟨more, by rw [run_append]; exact hm⟩
  | some j =>
    obtain ⟨m1, k1, _, _⟩ := finish_call _ h ho hown (Nat.le_refl _)
    obtain ⟨m2, k2⟩ := finish_all _ (i := i) (run_ok m1 h) (run_owner m1 h ho) k1 (Nat.le_refl _)
    exact ⟨m1 ++ m2, by rw [run_append, run_append]; exact k2⟩

/-- Two threads, of which one fails; the first has made all its calls. -/
example : ((run [1, 2, 3, 4, 5] true (start 2 fun i => if i = 0 then [⟨1, 2⟩, ⟨4, 2⟩] else if i = 1 then [⟨2 ^ 63, 1⟩, ⟨3, 1⟩] else [])
      [0, 1, 0, 0, 0, 1, 0, 1, 1, 1, 1, 1, 0, 0, 0, 0]).threads 0).results = [some [2, 3], some [5]] ∧
    ((run [1, 2, 3, 4, 5] true (start 2 fun i => if i = 0 then [⟨1, 2⟩, ⟨4, 2⟩] else if i = 1 then [⟨2 ^ 63, 1⟩, ⟨3, 1⟩] else [])
      [0, 1, 0, 0, 0, 1, 0, 1, 1, 1, 1, 1, 0, 0, 0, 0]).threads 1).results = [none, some [4]] := by decide +kernel

/-- **C84 violated (no mutex).** The input-output stream on a C `FILE` has no mutex: whenever two threads read, there is a schedule with which the first gets the
bytes at the offset of the other one. -/
theorem C84_no_mutex_violated (file : List UInt8) (pos : Nat) (calls : Nat → List Req) (a b : Req) (as bs : List Req) (h0 : calls 0 = a :: as) (h1 : calls 1 = b :: bs)
    (ha : a.offset < 2 ^ 63) (hb : b.offset < 2 ^ 63) :
    ∃ sched, ((run file false (start pos calls) sched).threads 0).results = [some (bytesAt file b.offset a.size)] := by
  refine ⟨[0, 0, 1, 1, 0], ?_⟩
  have e : ¬ 2 ^ 63 ≤ a.offset := by omega
  have e' : ¬ 2 ^ 63 ≤ b.offset := by omega
  simp [run, step, start, State.set, h0, h1, e, e', bytesAt]

example : readResult [1, 2, 3, 4] ⟨0, 2⟩ = some [1, 2] ∧ bytesAt [1, 2, 3, 4] 2 2 = [3, 4] := by decide +kernel

/-! ## HTTP -/

/-- **C84 (HTTP, safety).** For every server, whatever it sends in whatever pieces, and every offset and size: if the caller provides `size` bytes, only these are
written; the number reported is the number of bytes written, `size` at most. -/
theorem C84_http_safe (serve : String → List (List UInt8) × Bool) (offset size : Nat) (dst : Buf) (h : size ≤ dst.size) :
    httpRead serve offset size dst = .throws ∨ ∃ d l, httpRead serve offset size dst = .ok (d, l.length) ∧ Received dst d l ∧ l.length ≤ size := by
  unfold httpRead
  by_cases h0 : size = 0
  · rw [if_pos h0]; exact .inr ⟨dst, [], rfl, holds_nil dst, Nat.zero_le _⟩
  · rw [if_neg h0]; exact perform_safe h _ _ dst [] (holds_nil dst) (Nat.zero_le _)

/-- **C84 (HTTP).** For every file, offset and size with the last byte's position within 64 bits: if the server answers a request for the range from `offset` to
`offset + size - 1` with the bytes of this range, in any pieces, then the memory of the caller contains the bytes of the file at this offset, and their number is
reported. Nothing is requested for `size = 0`. Missing: other responses, see `C84_http_ignored_violated` and `C84_http_23_violated`. -/
theorem C84_http_partial (file : List UInt8) (serve : String → List (List UInt8) × Bool) (offset size : Nat) (dst : Buf) (h : size ≤ dst.size) (hs : offset + size ≤ 2 ^ 64)
    (hserve : 0 < size → Answers file (serve (toString offset ++ "-" ++ toString (offset + size - 1))) offset (offset + size - 1)) :
    ∃ d, httpRead serve offset size dst = .ok (d, (bytesAt file offset size).length) ∧ Received dst d (bytesAt file offset size) := by
  unfold httpRead
  by_cases h0 : size = 0
  · rw [if_pos h0, h0]; exact ⟨dst, by simp [bytesAt], by simpa [bytesAt] using holds_nil dst⟩
  · rw [if_neg h0]
    have e : rangeText offset size = toString offset ++ "-" ++ toString (offset + size - 1) := by unfold rangeText; rw [Nat.mod_eq_of_lt (by omega)]
    obtain ⟨h1, h2⟩ := hserve (by omega)
    have e2 : offset + size - 1 - offset + 1 = size := by omega
    rw [e2] at h2
    rw [e]
    have hl : (bytesAt file offset size).length ≤ size := List.length_take_le _ _
    obtain ⟨d, k1, k2⟩ := perform_fits h (serve (toString offset ++ "-" ++ toString (offset + size - 1))).2
      (serve (toString offset ++ "-" ++ toString (offset + size - 1))).1 dst [] (holds_nil dst) (by rw [h2]; simpa using hl)
    rw [h1, h2] at k2
    rw [h2] at k1
    refine ⟨d, ?_, by simpa using k1⟩
    rw [h1]
    simpa using k2

/-- A request for three bytes, answered in two pieces. -/
example : Answers [1, 2, 3, 4, 5] (if toString 1 ++ "-" ++ toString (1 + 3 - 1) = "1-3" then ([[2], [3, 4]], true) else ([], false)) 1 (1 + 3 - 1) := by
  unfold Answers; decide +kernel

/-- **C84 (HTTP, other responses).** For every server, offset and size: a transfer that fails, and a response longer than `size` (in pieces none of which has 23
bytes), is reported as an exception. -/
theorem C84_http_fails_partial (serve : String → List (List UInt8) × Bool) (offset size : Nat) (dst : Buf) (h : size ≤ dst.size) (hpos : 0 < size) (hs : offset + size ≤ 2 ^ 64)
    (h23 : ∀ p ∈ (serve (toString offset ++ "-" ++ toString (offset + size - 1))).1, p.length ≠ 23)
    (hbad : (serve (toString offset ++ "-" ++ toString (offset + size - 1))).2 = false ∨ size < (serve (toString offset ++ "-" ++ toString (offset + size - 1))).1.flatten.length) :
    httpRead serve offset size dst = .throws := by
  have e : rangeText offset size = toString offset ++ "-" ++ toString (offset + size - 1) := by unfold rangeText; rw [Nat.mod_eq_of_lt (by omega)]
  unfold httpRead
  rw [if_neg (by omega), e]
  generalize toString offset ++ "-" ++ toString (offset + size - 1) = range at *
  by_cases hl : size < (serve range).1.flatten.length
  · exact perform_long h _ _ dst [] (holds_nil dst) (Nat.zero_le _) (by simpa using hl) h23
  · obtain ⟨d, _, k2⟩ := perform_fits h (serve range).2 (serve range).1 dst [] (holds_nil dst) (by rw [List.length_nil, Nat.zero_add]; exact Nat.le_of_not_lt hl)
    have hb : (serve range).2 = false := by rcases hbad with k | k; exact k; exact absurd k hl
    rw [hb] at k2 ⊢
    exact k2

example : (([[1, 2], [3]], true) : List (List UInt8) × Bool).1.flatten.length = 3 ∧ ∀ p ∈ ([[1, 2], [3]] : List (List UInt8)), p.length ≠ 23 := by decide +kernel

/-- **C84 violated (HTTP, ignored range).** With a server that ignores the range, every read of at least as many bytes as the file has delivers the file from its
beginning, whatever the offset. The same for any other body, e.g. that of an error message: the status of the response is not looked at. -/
theorem C84_http_ignored_violated (file : List UInt8) (serve : String → List (List UInt8) × Bool) (hserve : IgnoresRanges file serve) (offset size : Nat) (dst : Buf)
    (h : size ≤ dst.size) (hpos : 0 < size) (hf : file.length ≤ size) :
    ∃ d, httpRead serve offset size dst = .ok (d, file.length) ∧ Received dst d file := by
  unfold httpRead
  rw [if_neg (by omega)]
  obtain ⟨h1, h2⟩ := hserve (rangeText offset size)
  obtain ⟨d, k1, k2⟩ := perform_fits h (serve (rangeText offset size)).2 (serve (rangeText offset size)).1 dst [] (holds_nil dst) (by rw [h2]; simpa using hf)
  rw [h1, h2] at k2
  rw [h2] at k1
  refine ⟨d, ?_, by simpa using k1⟩
  rw [h1]
  simpa using k2

example : IgnoresRanges [1, 2, 3] (fun _ => ([[1], [2, 3]], true)) ∧ bytesAt [1, 2, 3] 2 3 = [3] := ⟨fun _ => ⟨rfl, rfl⟩, by decide +kernel⟩

/-- **C84 violated (HTTP, piece of 23 bytes).** The number the stream returns to libcurl for a piece that does not fit is 23, which libcurl takes for the length of the
piece if this has 23 bytes: the piece is left out, the transfer goes on, and the pieces around it are delivered as if they were contiguous. -/
theorem C84_http_23_violated (a b c : List UInt8) (serve : String → List (List UInt8) × Bool) (offset size : Nat) (dst : Buf) (h : size ≤ dst.size)
    (hserve : serve (rangeText offset size) = ([a, b, c], true)) (hb : b.length = 23) (hab : a.length ≤ size) (hover : size < a.length + 23) (hc : a.length + c.length ≤ size)
    (hpos : 0 < size) :
    ∃ d, httpRead serve offset size dst = .ok (d, a.length + c.length) ∧ Received dst d (a ++ c) := by
  unfold httpRead
  rw [if_neg (by omega), hserve]
  obtain ⟨d1, h1, h2⟩ := holds_append (p := a) (holds_nil dst) (by simp; omega)
  obtain ⟨d2, h3, h4⟩ := holds_append (p := c) h2 (by simp; omega)
  refine ⟨d2, ?_, by simpa using h4⟩
  simp only [List.length_nil, List.nil_append] at h1 h2 h3
  rw [perform, writeData, if_neg (by omega), h1]
  dsimp only
  rw [if_neg (by simp), perform, writeData, if_pos (by omega)]
  dsimp only
  rw [if_neg (by rw [hb]; simp [writeError]), perform, writeData, if_neg (by omega)]
  simp only [Nat.zero_add]
  rw [h3]
  dsimp only
  rw [if_neg (by simp), perform]
  rfl

example : ∃ a b c : List UInt8, ∃ size, b.length = 23 ∧ a.length ≤ size ∧ size < a.length + 23 ∧ a.length + c.length ≤ size ∧ 0 < size ∧ c ≠ [] ∧ a ≠ [] :=
  ⟨[1], List.replicate 23 0, [2], 10, by decide +kernel⟩

/-! ## Azure and memory -/

/-- **C84 (Azure).** For every behaviour of the Azure library, every offset and size: the read succeeds exactly if offset and size are representable, the library
delivers a response with the status for success or for partial content that reports the offset that was asked for, and a length, which is `size` at most. This length is
reported. Missing: what the library stores. -/
theorem C84_azure_partial (download : Int → Int → Option Download) (offset size : Nat) (n : Int) (l : List UInt8) :
    azureRead download offset size = some (n, l) ↔
      offset < 2 ^ 63 ∧ size < 2 ^ 63 ∧ ∃ d, download offset size = some d ∧ (d.status = 200 ∨ d.status = 206) ∧ d.position = offset ∧ d.length = some n ∧ n ≤ size ∧
        d.bytes = l := by
  unfold azureRead
  by_cases hs : 2 ^ 63 - 1 < size
  · rw [if_pos hs]; exact ⟨fun h => (by cases h), fun h => (by omega)⟩
  · rw [if_neg hs]
    by_cases ho : 2 ^ 63 - 1 < offset
    · rw [if_pos ho]; exact ⟨fun h => (by cases h), fun h => (by omega)⟩
    · rw [if_neg ho]
      have b1 : offset < 2 ^ 63 := by omega
      have b2 : size < 2 ^ 63 := by omega
      cases hd : download offset size with
      | none => simp
      | some d =>
        dsimp only
        by_cases hst : d.status = 200 ∨ d.status = 206
        · rw [if_pos hst]
          by_cases hp : d.position = offset
          · rw [if_neg (by simp [hp])]
            cases hl : d.length with
            | none =>
              refine ⟨fun h => (by cases h), ?_⟩
              rintro ⟨_, _, d', e, _, _, k, _⟩
              injection e with e
              subst e
              rw [hl] at k
              cases k
            | some m =>
              dsimp only
              by_cases hm : (size : Int) < m
              · rw [if_pos hm]
                refine ⟨fun h => (by cases h), ?_⟩
                rintro ⟨_, _, d', e, _, _, k, k', _⟩
                injection e with e
                subst e
                rw [hl] at k
                injection k with k
                omega
              · rw [if_neg hm]
                constructor
                · intro h
                  injection h with h
                  injection h with e1 e2
                  exact ⟨b1, b2, d, rfl, hst, hp, by rw [hl, e1], by omega, e2⟩
                · rintro ⟨_, _, d', e, _, _, k, _, k''⟩
                  injection e with e
                  subst e
                  rw [hl] at k
                  injection k with k
                  rw [k, k'']
          · rw [if_pos hp]
            refine ⟨fun h => (by cases h), ?_⟩
            rintro ⟨_, _, d', e, _, k, _⟩
            injection e with e
            subst e
            exact absurd k hp
        · rw [if_neg hst]
          refine ⟨fun h => (by cases h), ?_⟩
          rintro ⟨_, _, d', e, k, _⟩
          injection e with e
          subst e
          exact absurd k hst

example : azureRead (fun o s => some ⟨206, o, some (min s 3), [7, 8, 9]⟩) 5 10 = some (3, [7, 8, 9]) := by decide +kernel

/-- **C84 violated (memory, end).** Reading at the end of the memory of a stream, or beyond, is an exception, although the interface says that it is not. -/
theorem C84_memory_end_violated (data : Buf) (offset size : UInt64) (dst : Buf) (h : data.size ≤ offset.toNat) : memStreamRead data offset (some dst) size = .throws := by
  unfold memStreamRead
  dsimp only
  rw [if_pos h]

example : (Buf.ofList [1, 2, 3]).size ≤ (3 : UInt64).toNat := by decide +kernel

end Verif
