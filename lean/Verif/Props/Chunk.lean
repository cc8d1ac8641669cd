import Verif.Spec.Chunk
import Verif.Proof.Codec

namespace Verif

open Czi Spec

theorem fieldNat_lt4 (l : List UInt8) (o : Nat) : fieldNat l o 4 < 2 ^ 32 := by
  unfold fieldNat field
  have h := unle_lt ((l.drop o).take 4)
  have h2 : ((l.drop o).take 4).length ≤ 4 := by simp; omega
  calc _ < _ := h
    _ ≤ 256 ^ 4 := Nat.pow_le_pow_right (by omega) h2
    _ = 2 ^ 32 := by decide

theorem guidBytes_length (g : Guid) : (guidBytes g).length = 16 := by simp [guidBytes]

theorem chunk_fields (c : StoredChunk) (rest : List UInt8) (h : c.2.length < 2 ^ 32) :
    guidOf (field (chunkBytes c ++ rest) 0 16) = c.1 ∧ fieldNat (chunkBytes c ++ rest) 16 4 = c.2.length := by
  have hg := guidBytes_length c.1
  constructor
  · have : field (chunkBytes c ++ rest) 0 16 = guidBytes c.1 := by
      simp only [field, chunkBytes, List.append_assoc, List.drop_zero]
      rw [List.take_append_of_le_length (by omega), List.take_of_length_le (by omega)]
    rw [this, guidOf_guidBytes]
  · have : field (chunkBytes c ++ rest) 16 4 = le 4 c.2.length := by
      simp only [field, chunkBytes, List.append_assoc]
      rw [List.drop_append_of_le_length (by omega), List.drop_of_length_le (by omega), List.nil_append,
        List.take_append_of_le_length (by simp), List.take_of_length_le (by simp)]
    rw [fieldNat, this, unle_le_of_lt (by simpa using h)]

theorem chunkBytes_length (c : StoredChunk) : (chunkBytes c).length = 20 + c.2.length := by
  simp [chunkBytes, guidBytes_length]; omega

/-- **C41 (one chunk).** A container with exactly one chunk, followed by at most 20 further bytes, is reported exactly, to
every callback: one call, with index 0, the stored GUID, the offset of the payload and its size. -/
theorem C41_single_exact_partial {σ : Type} (f : σ → Nat → Chunk → Bool × σ) (c : StoredChunk) (tail : List UInt8) (st : σ)
    (hw : WellFormed [c]) (ht : tail.length ≤ 20) (hl : (containerBytes [c]).length + 41 < 2 ^ 32) :
    enumerateChunks f true (containerBytes [c] ++ tail) st =
      (.ok true, (present f 0 (chunkInfos 0 [c]) st).2) := by
  have hne : c.2 ≠ [] := hw.2.1 c (by simp)
  have hp : 0 < c.2.length := List.length_pos_iff.2 hne
  have hb : containerBytes [c] = chunkBytes c := by simp [containerBytes]
  rw [hb] at hl ⊢
  rw [chunkBytes_length] at hl
  have hlen : (chunkBytes c ++ tail).length = 20 + c.2.length + tail.length := by
    simp [chunkBytes_length]
  obtain ⟨h1, h2⟩ := chunk_fields c tail (by omega)
  unfold enumerateChunks
  rw [if_neg (by simp), if_neg (by omega), chunkLoop, if_pos (by omega)]
  simp only [Nat.zero_add]
  rw [h2, if_neg (by omega), h1]
  simp only [chunkInfos, present, Nat.zero_add]
  rw [Nat.mod_eq_of_lt (by omega : 20 < 2 ^ 32)]
  split
  · rfl
  · rw [if_pos (by omega)]

/-- **C41 (first chunk).** Of every well-formed container the first call of the callback gets the right index, GUID, offset
and size. If the callback asks to stop there, the call returns. -/
theorem C41_first_exact_partial {σ : Type} (f : σ → Nat → Chunk → Bool × σ) (c : StoredChunk) (cs : List StoredChunk)
    (st : σ) (hw : WellFormed (c :: cs)) (hs : (f st 0 ⟨c.1, 20, c.2.length⟩).1 = false) :
    enumerateChunks f true (containerBytes (c :: cs)) st = (.ok true, (f st 0 ⟨c.1, 20, c.2.length⟩).2) := by
  have hb : containerBytes (c :: cs) = chunkBytes c ++ containerBytes cs := by simp [containerBytes]
  have hl := hw.2.2
  have hp : 0 < c.2.length := List.length_pos_iff.2 (hw.2.1 c (by simp))
  rw [hb] at hl ⊢
  have hlen : (chunkBytes c ++ containerBytes cs).length = 20 + c.2.length + (containerBytes cs).length := by
    simp [chunkBytes_length]
  obtain ⟨h1, h2⟩ := chunk_fields c (containerBytes cs) (by omega)
  unfold enumerateChunks
  rw [if_neg (by simp), if_neg (by omega), chunkLoop, if_pos (by omega)]
  simp only [Nat.zero_add]
  rw [h2, if_neg (by omega), h1]
  rw [Nat.mod_eq_of_lt (by omega : 20 < 2 ^ 32), if_pos hs]

/-- **C41 (rejections).** Without a chunk container, with fewer than 21 bytes, or with a first chunk that announces more payload
than there is (and less than 4 GiB - 20), the call throws before any call of the callback. -/
theorem C41_rejects {σ : Type} (f : σ → Nat → Chunk → Bool × σ) (has : Bool) (data : List UInt8) (st : σ)
    (h : has = false ∨ data.length < 21 ∨
      (data.length < 20 + fieldNat data 16 4 ∧ 20 + fieldNat data 16 4 < 2 ^ 32)) :
    enumerateChunks f has data st = (.throws, st) := by
  unfold enumerateChunks
  by_cases h1 : has = false
  · rw [if_pos h1]
  · rw [if_neg h1]
    by_cases h2 : data.length < 21
    · rw [if_pos h2]
    · rw [if_neg h2, chunkLoop, if_pos (by omega)]
      rcases h with h | h | h
      · exact absurd h h1
      · exact absurd h h2
      · simp only [Nat.zero_add]
        rw [if_pos (by omega)]

/-- **C41 (memory safety).** If no size field that can be read leads to a wrap-around of 32-bit arithmetic, the enumeration never
leaves the attachment, whatever the contents and the callback. The condition is on the 4-byte fields at 16, 36, 56, …, since this is
where the code reads. -/
theorem C41_memory_safe_partial {σ : Type} (f : σ → Nat → Chunk → Bool × σ) (has : Bool) (data : List UInt8) (st : σ)
    (h : ∀ k, 20 * k + 20 ≤ data.length → data.length + 20 + fieldNat data (20 * k + 16) 4 < 2 ^ 32) :
    (enumerateChunks f has data st).1 ≠ .undefined := by
  have key : ∀ n k offset st, data.length - 20 * k = n → 20 * k ≤ offset → offset + 21 ≤ data.length →
      (chunkLoop f data (20 * k) offset st).1 ≠ .undefined := by
    intro n
    induction n using Nat.strongRecOn with
    | _ n ih =>
      intro k offset st hn hk ho
      have hh := h k (by omega)
      rw [chunkLoop, if_pos (by omega)]
      dsimp only
      rw [Nat.mod_eq_of_lt (by omega : offset + 20 + fieldNat data (20 * k + 16) 4 < 2 ^ 32)]
      split
      · simp
      · split
        · simp
        · split
          · simp
          · rename_i h3
            have hs : offset + 20 + fieldNat data (20 * k + 16) 4 + 21 ≤ data.length := by omega
            exact ih (data.length - 20 * (k + 1)) (by omega) (k + 1) _ _ rfl (by omega) hs
  unfold enumerateChunks
  split
  · simp
  · split
    · simp
    · exact key _ 0 0 st rfl (by omega) (by omega)

/-- **C41, violated.** The index handed to the callback is always 0: no callback can tell the calls apart by the index. -/
theorem C41_index_always_zero {σ : Type} (f : σ → Nat → Chunk → Bool × σ) (has : Bool) (data : List UInt8) (st : σ) :
    enumerateChunks f has data st = enumerateChunks (fun s _ c => f s 0 c) has data st := by
  have key : ∀ n ptr offset st, data.length - ptr = n →
      chunkLoop f data ptr offset st = chunkLoop (fun s _ c => f s 0 c) data ptr offset st := by
    intro n
    induction n using Nat.strongRecOn with
    | _ n ih =>
      intro ptr offset st hn
      rw [chunkLoop, chunkLoop]
      split
      · dsimp only
        rw [ih (data.length - (ptr + 20)) (by omega) (ptr + 20) _ _ rfl]
      · rfl
  unfold enumerateChunks
  rw [key _ 0 0 st rfl]

/-- What the loop tells a callback that never stops: it only appends. -/
theorem noteAll_prefix (data : List UInt8) (n ptr offset : Nat) (st : List (Nat × Chunk)) (hn : data.length - ptr = n) :
    ∃ more, (chunkLoop noteAll data ptr offset st).2 = st ++ more := by
  induction n using Nat.strongRecOn generalizing ptr offset st with
  | _ n ih =>
    rw [chunkLoop]
    split
    · dsimp only
      split
      · exact ⟨[], by simp⟩
      · split
        · exact ⟨[(0, _)], rfl⟩
        · split
          · exact ⟨[(0, _)], rfl⟩
          · obtain ⟨m, hm⟩ := ih (data.length - (ptr + 20)) (by omega) (ptr + 20) _ _ rfl
            exact ⟨_, by rw [hm]; simp only [noteAll, List.append_assoc]; rfl⟩
    · exact ⟨[], by simp⟩

/-- **C41, violated.** With a second chunk, the calls are wrong for *every* container whose first payload has at least 16 bytes
that are not the GUID of the second chunk: the code reads the second header at the beginning of the first payload. -/
theorem C41_second_chunk_wrong (c1 c2 : StoredChunk) (cs : List StoredChunk) (hw : WellFormed (c1 :: c2 :: cs))
    (h16 : 16 ≤ c1.2.length) (hg : guidOf (c1.2.take 16) ≠ c2.1) :
    ((enumerateChunks noteAll true (containerBytes (c1 :: c2 :: cs)) []).2).map (·.2) ≠ chunkInfos 0 (c1 :: c2 :: cs) := by
  have hb : containerBytes (c1 :: c2 :: cs) = chunkBytes c1 ++ containerBytes (c2 :: cs) := by simp [containerBytes]
  have hl := hw.2.2
  have hp2 : 0 < c2.2.length := List.length_pos_iff.2 (hw.2.1 c2 (by simp))
  have hr : 20 ≤ (containerBytes (c2 :: cs)).length := by
    simp only [containerBytes, List.map_cons, List.flatten_cons, List.length_append, chunkBytes_length]
    omega
  rw [hb] at hl ⊢
  have hlen : (chunkBytes c1 ++ containerBytes (c2 :: cs)).length = 20 + c1.2.length + (containerBytes (c2 :: cs)).length := by
    simp [chunkBytes_length]
  obtain ⟨h1, h2⟩ := chunk_fields c1 (containerBytes (c2 :: cs)) (by omega)
  have h3 : field (chunkBytes c1 ++ containerBytes (c2 :: cs)) 20 16 = c1.2.take 16 := by
    have hg1 := guidBytes_length c1.1
    simp only [field, chunkBytes]
    rw [List.append_assoc (guidBytes c1.1 ++ le 4 c1.2.length),
      List.drop_append_of_le_length (by simp [hg1]), List.drop_of_length_le (by simp [hg1]), List.nil_append,
      List.take_append_of_le_length h16]
  generalize hd : chunkBytes c1 ++ containerBytes (c2 :: cs) = data at *
  unfold enumerateChunks
  rw [if_neg (by simp), if_neg (by omega), chunkLoop, if_pos (by omega)]
  simp only [Nat.zero_add]
  rw [h2, if_neg (by omega), h1, Nat.mod_eq_of_lt (by omega : 20 < 2 ^ 32)]
  simp only [noteAll, List.nil_append, Bool.true_eq_false, if_false]
  rw [Nat.mod_eq_of_lt (by omega : 20 + c1.2.length < 2 ^ 32)]
  by_cases h4 : data.length < (20 + c1.2.length + 21) % 2 ^ 32
  · rw [if_pos h4]
    simp [chunkInfos]
  · rw [if_neg h4, chunkLoop, if_pos (by omega)]
    dsimp only
    split
    · simp [chunkInfos]
    · rw [h3]
      simp only [noteAll, Bool.true_eq_false, if_false]
      split
      · intro hh
        simp [chunkInfos] at hh
        exact hg hh.1.1
      · obtain ⟨m, hm⟩ := noteAll_prefix data _ (20 + 20) ((20 + c1.2.length + 20 + fieldNat data (20 + 16) 4) % 2 ^ 32)
          ([(0, ⟨c1.1, 20, c1.2.length⟩)] ++ [(0, ⟨guidOf (c1.2.take 16), (20 + c1.2.length + 20) % 2 ^ 32,
            fieldNat data (20 + 16) 4⟩)]) rfl
        intro hh
        have hm' := congrArg (List.map (·.2)) hm
        rw [hh] at hm'
        simp [chunkInfos] at hm'
        exact hg hm'.1.1.symm

/-- **C41, violated.** Sizes of 2^32 - 20 pass the check because of 32-bit wrap-around and do not advance the offset: with a
callback that does not stop, the code runs out of the attachment, for every attachment made of such chunks. -/
theorem C41_wrap_out_of_bounds (data : List UInt8) (st : List (Nat × Chunk)) (hl : 21 ≤ data.length)
    (h : ∀ k, 20 * k + 20 ≤ data.length → fieldNat data (20 * k + 16) 4 = 2 ^ 32 - 20) :
    (enumerateChunks noteAll true data st).1 = .undefined := by
  have key : ∀ n k st, data.length - 20 * k = n → (chunkLoop noteAll data (20 * k) 0 st).1 = .undefined := by
    intro n
    induction n using Nat.strongRecOn with
    | _ n ih =>
      intro k st hn
      rw [chunkLoop]
      split
      · rename_i hk
        dsimp only
        rw [h k hk]
        simp only [noteAll, Bool.true_eq_false, if_false]
        rw [if_neg (by omega), if_neg (by omega)]
        exact ih (data.length - 20 * (k + 1)) (by omega) (k + 1) _ rfl
      · rfl
  unfold enumerateChunks
  rw [if_neg (by simp), if_neg (by omega)]
  exact key _ 0 st rfl

/-! ## Non-vacuity -/

def exGuid : Guid := ⟨1, 2, 3, #v[1, 2, 3, 4, 5, 6, 7, 8]⟩

example : WellFormed [(exGuid, [1, 2, 3])] := by refine ⟨by simp, by simp, by decide +kernel⟩
example : enumerateChunks noteAll true (containerBytes [(exGuid, [1, 2, 3])] ++ [9]) [] =
    (.ok true, [(0, ⟨exGuid, 20, 3⟩)]) := by
  rw [C41_single_exact_partial noteAll (exGuid, [1, 2, 3]) [9] [] ⟨by simp, by simp, by decide +kernel⟩ (by simp)
    (by decide +kernel)]
  rfl
example : WellFormed [(exGuid, List.replicate 16 0), (exGuid, [7])] ∧
    guidOf ((List.replicate 16 (0 : UInt8)).take 16) ≠ exGuid := by
  refine ⟨⟨by simp, by simp, by decide +kernel⟩, by decide +kernel⟩
example : ∃ data : List UInt8, 21 ≤ data.length ∧
    ∀ k, 20 * k + 20 ≤ data.length → fieldNat data (20 * k + 16) 4 = 2 ^ 32 - 20 := by
  refine ⟨zeros 16 ++ [0xec, 0xff, 0xff, 0xff] ++ zeros 16 ++ [0xec, 0xff, 0xff, 0xff], by decide, ?_⟩
  intro k hk
  have : (zeros 16 ++ [0xec, 0xff, 0xff, 0xff] ++ zeros 16 ++ [0xec, 0xff, 0xff, 0xff] : List UInt8).length = 40 := by decide
  have : k = 0 ∨ k = 1 := by omega
  rcases this with rfl | rfl <;> decide +kernel
example : ∀ k, 20 * k + 20 ≤ (containerBytes [(exGuid, [1, 2, 3])]).length →
    (containerBytes [(exGuid, [1, 2, 3])]).length + 20 + fieldNat (containerBytes [(exGuid, [1, 2, 3])]) (20 * k + 16) 4 < 2 ^ 32 := by
  intro k hk
  have : (containerBytes [(exGuid, [1, 2, 3])]).length = 23 := by decide +kernel
  have : k = 0 := by omega
  subst this
  decide +kernel

end Verif
