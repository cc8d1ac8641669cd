import Verif.Proof.CApiGuid
import Verif.Props.AddOverloads

/-!
# C68: adding sub-blocks through the C API; C69: values that cross the C API
-/

namespace Verif

open Verif.Spec Verif.Czi Verif.CApi Verif.Text

/-! ## C69: conversions -/

/-- **C69 (coordinates and bounds, out).** The bit field and the array handed to a C caller represent the coordinate or the bounds, and no other bits
are set. -/
theorem C69_represented (c : Coord) (b : Bounds) :
    Represents (coordToInterop c) c ∧ (coordToInterop c).valid < 512 ∧ Represents (boundsToInterop b) b ∧ (boundsToInterop b).valid < 512 :=
  ⟨(pack_represents c _).1, (pack_represents c _).2, (pack_represents b _).1, (pack_represents b _).2⟩

/-- **C69 (coordinates, in).** A coordinate given by a C caller is understood: whatever coordinate the bit field and the array represent, this is the one
the library works with; and a coordinate that is handed out and given back is unchanged. -/
theorem C69_understood (p : Packed Int) (c : Coord) (h : Represents p c) : coordFromInterop p = c ∧ coordFromInterop (coordToInterop c) = c :=
  ⟨coord_represented h, coord_represented (pack_represents c _).1⟩

/-- **C69 (every input is understood).** Every bit field with every array represents the coordinate the library works with. -/
theorem C69_every_coordinate (p : Packed Int) : Represents p (coordFromInterop p) := by
  -- the coordinate read off directly
  have hex : ∃ c : Coord, Represents p c := by
    refine ⟨fun d => if p.valid.testBit (dimBit d) then some (p.value ((Dim.all.filter fun e => decide (dimBit e < dimBit d) && p.valid.testBit (dimBit e)).length)) else none,
      fun d => ?_, fun d v hv => ?_⟩
    · by_cases h : p.valid.testBit (dimBit d) = true
      · rw [if_pos h, h]; rfl
      · rw [if_neg h]; simpa using h
    · by_cases h : p.valid.testBit (dimBit d) = true
      · rw [if_pos h] at hv
        injection hv with hv
        rw [← hv]
        congr 2
        unfold rank
        congr 1
        apply List.filter_congr
        intro e _
        dsimp only
        by_cases he : p.valid.testBit (dimBit e) = true
        · rw [if_pos he, he]; rfl
        · rw [if_neg he]; simp [he]
      · rw [if_neg h] at hv; cases hv
  obtain ⟨c, hc⟩ := hex
  rw [coord_represented hc]
  exact hc

/-- Bits 1 and 4 with values 7 and -3: C7S-3. -/
example : Represents ⟨0b10010, fun k => if k = 0 then 7 else -3⟩ ((Coord.empty.set .C 7).set .S (-3)) := by
  constructor
  · intro d; cases d <;> decide
  · intro d v h
    cases d <;> first | exact Option.some.inj h | (have e : none = some v := h; cases e)

/-- **C69 (names).** A UTF-8 text copied into a fixed buffer of `size` bytes: exactly the longest sequence of whole characters that fits with a terminating zero is
copied, nothing behind the zero changes, and overflow is reported iff characters are missing. -/
theorem C69_truncated (chars : List (List UInt8)) (hc : ∀ c ∈ chars, Utf8Char c) (dst : Buf) (size : Nat) (hs : 0 < size) (hd : size ≤ dst.size) :
    ∃ k dst', k ≤ chars.length ∧ copyTruncate chars.flatten dst size = some (decide (k < chars.length), dst') ∧
      (firstChars chars k).length < size ∧ StartsWith dst' (firstChars chars k ++ [0]) ∧ SameFrom ((firstChars chars k).length + 1) dst dst' ∧
      (k < chars.length → size ≤ (firstChars chars (k + 1)).length) := by
  have hpos : ∀ k (h : k < chars.length), 0 < chars[k].length := by
    intro k h
    obtain ⟨b, rest, e, _⟩ := hc _ (List.getElem_mem h)
    rw [e]; simp
  have hall : ∀ k, k ≤ chars.length → chars.length ≤ k → (firstChars chars k).length = chars.flatten.length := by
    intro k h1 h2
    unfold firstChars
    rw [show k = chars.length by omega, List.take_length]
  have hmono : ∀ k, k < chars.length → (firstChars chars k).length < chars.flatten.length := by
    intro k h
    have h1 := congrArg List.length (congrArg List.flatten (List.take_append_drop (k + 1) chars))
    rw [List.flatten_append, List.length_append] at h1
    have h2 : (firstChars chars (k + 1)).length = (firstChars chars k).length + chars[k].length := by rw [firstChars_succ h, List.length_append]
    have := hpos k h
    unfold firstChars at h2 ⊢
    omega
  unfold copyTruncate
  rw [if_neg (by omega)]
  by_cases h1 : size = 1
  · rw [if_pos h1]
    refine ⟨0, ⟨dst.size, fun j => if j = 0 then 0 else dst.get j⟩, by omega, ?_, by simp [firstChars]; omega, ?_, ?_, fun h => ?_⟩
    · unfold Buf.write
      rw [if_pos (by omega)]
      simp only [Option.map_some]
      congr 2
      cases chars with
      | nil => rfl
      | cons c cs =>
        obtain ⟨b, rest, e, _⟩ := hc c (by simp)
        rw [e]; simp
    · intro i hi
      have : i = 0 := by simp [firstChars] at hi; omega
      subst this
      simp [Buf.read, firstChars]
      omega
    · refine ⟨rfl, fun i hi => ?_⟩
      simp [firstChars] at hi
      dsimp only
      rw [if_neg (by omega)]
    · rw [firstChars_succ h, List.length_append]
      have := hpos 0 h
      omega
  · rw [if_neg h1]
    dsimp only
    generalize hlen : (if chars.flatten.length < size - 1 then chars.flatten.length else size - 1) = len
    have hl1 : len ≤ chars.flatten.length ∧ len ≤ size - 1 ∧ (len = chars.flatten.length ∨ len = size - 1) := by
      rw [← hlen]; split <;> omega
    obtain ⟨k, k1, k2, k3, k4⟩ := backUp_chars hc len hl1.1
    have hpre : ∀ i (h : i < (firstChars chars k).length), chars.flatten.getD i 0 = (firstChars chars k)[i] := by
      intro i h
      have e : chars.flatten = firstChars chars k ++ (chars.drop k).flatten := by
        unfold firstChars; rw [← List.flatten_append, List.take_append_drop]
      rw [e, List.getD_eq_getElem?_getD, List.getElem?_append_left h, List.getElem?_eq_getElem h]; rfl
    rw [k2]
    have hm : dst.memcpy 0 (Buf.ofList chars.flatten) 0 (firstChars chars k).length = some ⟨dst.size, fun i => if 0 ≤ i ∧ i < 0 + (firstChars chars k).length then (Buf.ofList chars.flatten).get (0 + (i - 0)) else dst.get i⟩ := by
      unfold Buf.memcpy
      rw [if_pos]
      constructor
      · omega
      · show 0 + _ ≤ chars.flatten.length; omega
    rw [hm]
    dsimp only [Option.bind_some]
    unfold Buf.write
    rw [if_pos (by dsimp only; omega)]
    refine ⟨k, ⟨dst.size, fun j => if j = (firstChars chars k).length then 0 else if 0 ≤ j ∧ j < 0 + (firstChars chars k).length then (Buf.ofList chars.flatten).get (0 + (j - 0)) else dst.get j⟩, k1, ?_, by omega, ?_, ?_, fun h => ?_⟩
    · simp only [Option.map_some]
      congr 2
      rw [Bool.eq_iff_iff, Bool.or_eq_true, decide_eq_true_eq, decide_eq_true_eq, decide_eq_true_eq]
      constructor
      · intro h
        by_contra hk
        have := hall k k1 (by omega)
        omega
      · intro h
        have := hmono k h
        omega
    · intro i hi
      rw [List.length_append, List.length_singleton] at hi
      unfold Buf.read
      rw [if_pos (by dsimp only; omega)]
      dsimp only
      by_cases he : i = (firstChars chars k).length
      · subst he
        rw [if_pos rfl]
        congr 1
        rw [List.getElem_append_right (by omega)]; simp
      · rw [if_neg he, if_pos (by omega)]
        congr 1
        rw [List.getElem_append_left (by omega)]
        unfold Buf.ofList
        dsimp only
        rw [show 0 + (i - 0) = i by omega, hpre i (by omega)]
    · refine ⟨rfl, fun i hi => ?_⟩
      dsimp only
      rw [if_neg (by omega), if_neg (by omega)]
    · have h4 := k4 h
      have := hmono k h
      rcases hl1.2.2 with e | e
      · exfalso
        have h1 := congrArg List.length (congrArg List.flatten (List.take_append_drop (k + 1) chars))
        rw [List.flatten_append, List.length_append] at h1
        unfold firstChars at h4
        omega
      · omega

/-- Seven bytes (three characters of 1, 2 and 4 bytes) in a buffer of 6: the last character is dropped. -/
example : ∃ dst', copyTruncate [65, 0xC3, 0xA4, 0xF0, 0x9F, 0x98, 0x80] ⟨6, fun _ => 255⟩ 6 = some (true, dst') ∧ dst'.toList = [65, 0xC3, 0xA4, 0, 255, 255] ∧
    (∀ c ∈ [[65], [0xC3, 0xA4], [0xF0, 0x9F, 0x98, 0x80]], Utf8Char c) := by
  refine ⟨_, rfl, by decide, ?_⟩
  intro c hc
  simp only [List.mem_cons, List.not_mem_nil, or_false] at hc
  rcases hc with rfl | rfl | rfl
  · exact ⟨65, [], rfl, by decide, by decide⟩
  · exact ⟨0xC3, [0xA4], rfl, by decide, by decide⟩
  · exact ⟨0xF0, [0x9F, 0x98, 0x80], rfl, by decide, by decide⟩

/-- **C69 (GUIDs).** The text given for the GUID of a file is accepted iff it is the text of a GUID, with or without braces, with blanks around it, and then it
is read as this GUID. -/
theorem C69_guid (s : List Char) (g : Guid) :
    tryParseGuid s = some g ↔ ∃ t, GuidText g t ∧ (Padded t s ∨ Padded ('{' :: (t ++ ['}'])) s) := by
  have hfirst : ∀ {g t}, GuidText g t → ∃ c cs, t = c :: cs ∧ c ≠ '{' ∧ c ∉ ['\t', ' '] ∧ 2 ≤ t.length ∧ ∀ c, t.getLast? = some c → c ∉ ['\t', ' '] := by
    intro g t ht
    obtain ⟨p1, p2, p3, p4, p5, hg⟩ := guidText_groups ht
    have tb : ∀ c : Char, isHex c = true → c ≠ '{' ∧ c ∉ ['\t', ' '] := by
      intro c hc
      constructor
      · rintro rfl; exact absurd hc (by decide)
      · intro hm
        simp only [List.mem_cons, List.not_mem_nil, or_false] at hm
        rcases hm with rfl | rfl <;> exact absurd hc (by decide)
    obtain ⟨a, r, e1⟩ : ∃ a r, p1 = a :: r := by
      cases p1 with
      | nil => have := hg.l1; cases this
      | cons a r => exact ⟨a, r, rfl⟩
    have ha := tb a (hg.h1 a (by rw [e1]; simp))
    refine ⟨a, r ++ '-' :: (p2 ++ '-' :: (p3 ++ '-' :: (p4 ++ '-' :: p5))), by rw [hg.text, e1]; rfl, ha.1, ha.2, ?_, ?_⟩
    · rw [hg.text]
      simp only [List.length_append, List.length_cons, hg.l1]; omega
    · intro c hc
      have h5 : p5 ≠ [] := by intro e; have := hg.l5; rw [e] at this; cases this
      have : t.getLast? = p5.getLast? := by
        rw [hg.text]
        rw [List.getLast?_append_of_ne_nil _ (by simp)]
        rw [show ('-' :: (p2 ++ '-' :: (p3 ++ '-' :: (p4 ++ '-' :: p5)))) = ('-' :: (p2 ++ '-' :: (p3 ++ '-' :: (p4 ++ ['-'])))) ++ p5 by simp]
        rw [List.getLast?_append_of_ne_nil _ h5]
      rw [this] at hc
      exact (tb c (hg.h5 c (List.mem_of_getLast? hc))).2
  constructor
  · intro h
    unfold tryParseGuid at h
    dsimp only at h
    have hp := Text.trim_padded s
    generalize Text.trim s = t at h hp
    by_cases h2 : t.length < 2
    · rw [if_pos h2] at h; cases h
    · rw [if_neg h2] at h
      have key : ∀ u, (if matchesGuid u = true then guidParts u else none) = some g → GuidText g u := by
        intro u hu
        by_cases hm : matchesGuid u = true
        · rw [if_pos hm] at hu
          obtain ⟨p1, p2, p3, p4, p5, hg⟩ := (matchesGuid_iff u).1 hm
          obtain ⟨g', e1, e2⟩ := guidParts_groups hg
          rw [hu] at e1
          injection e1 with e1
          rw [e1]; exact e2
        · rw [if_neg hm] at hu; cases hu
      by_cases hb : t[0]? = some '{' ∧ t.getLast? = some '}'
      · rw [if_pos hb] at h
        refine ⟨_, key _ h, Or.inr ?_⟩
        have : t = '{' :: ((t.drop 1).dropLast ++ ['}']) := by
          match t, h2, hb with
          | a :: b :: r, _, hb =>
            obtain ⟨h1, h3⟩ := hb
            injection h1 with h1
            subst h1
            have h4 : (b :: r).getLast? = some '}' := by rw [← h3, List.getLast?_cons_cons]
            rw [List.drop_succ_cons, List.drop_zero]
            congr 1
            exact (List.dropLast_append_getLast? _ (by rw [h4]; rfl)).symm
        rw [← this]; exact hp
      · rw [if_neg hb] at h
        exact ⟨t, key t h, Or.inl hp⟩
  · rintro ⟨t, ht, hp⟩
    obtain ⟨c, cs, e1, e2, e3, e4, e5⟩ := hfirst ht
    obtain ⟨p1, p2, p3, p4, p5, hg⟩ := guidText_groups ht
    have hm := (matchesGuid_iff t).2 ⟨p1, p2, p3, p4, p5, hg⟩
    obtain ⟨g', f1, f2⟩ := guidParts_groups hg
    have hgg := guidText_unique ht f2
    subst hgg
    unfold tryParseGuid
    dsimp only
    rcases hp with hp | hp
    · have hn : ¬(t[0]? = some '{' ∧ t.getLast? = some '}') := by
        rintro ⟨h1, _⟩
        rw [e1] at h1
        injection h1 with h1
        exact e2 h1
      have hb : (if t[0]? = some '{' ∧ t.getLast? = some '}' then (t.drop 1).dropLast else t) = t := if_neg hn
      rw [Text.trim_unique hp, if_neg (by omega), hb, if_pos hm, f1]
    · have hb : (if ('{' :: (t ++ ['}']))[0]? = some '{' ∧ ('{' :: (t ++ ['}'])).getLast? = some '}' then (('{' :: (t ++ ['}'])).drop 1).dropLast else '{' :: (t ++ ['}'])) = t := by
        rw [if_pos ⟨rfl, by rw [← List.cons_append, List.getLast?_concat]⟩, List.drop_succ_cons, List.drop_zero, List.dropLast_concat]
      rw [Text.trim_unique hp, if_neg (by simp), hb, if_pos hm, f1]

/-- Braces and blanks. -/
example : tryParseGuid "  {01234567-89ab-CDEF-0011-223344556677}\t".toList = some ⟨0x01234567, 0x89ab, 0xcdef, #v[0, 0x11, 0x22, 0x33, 0x44, 0x55, 0x66, 0x77]⟩ := by
  decide +kernel

/-- A digit is missing. -/
example : tryParseGuid "0123456-89ab-CDEF-0011-223344556677".toList = none := by decide +kernel

/-- **C69 (memory).** The number of bytes that are available is reported; if memory is given, as many bytes as were announced and are available are copied
and the other bytes stay as they are; nothing outside of the memory is touched if it has the announced size. -/
theorem C69_raw_data (raw : List UInt8) (size : Nat) (b : Buf) (hb : size ≤ b.size) :
    getRawData raw size none = some (raw.length, none) ∧
    ∃ b', getRawData raw size (some b) = some (raw.length, some b') ∧ StartsWith b' (raw.take size) ∧ SameFrom (min size raw.length) b b' := by
  refine ⟨rfl, ⟨b.size, fun i => if 0 ≤ i ∧ i < 0 + min size raw.length then (Buf.ofList raw).get (0 + (i - 0)) else b.get i⟩, ?_, ?_, rfl, fun i hi => ?_⟩
  · unfold getRawData Buf.memcpy
    dsimp only
    rw [if_pos]
    · rfl
    · constructor
      · omega
      · show 0 + _ ≤ raw.length; omega
  · intro i hi
    rw [List.length_take] at hi
    unfold Buf.read
    rw [if_pos (by dsimp only; omega)]
    dsimp only
    rw [if_pos (by omega), show 0 + (i - 0) = i by omega]
    unfold Buf.ofList
    dsimp only
    rw [List.getD_eq_getElem?_getD, List.getElem?_eq_getElem (by omega), List.getElem_take]; rfl
  · dsimp only
    rw [if_neg (by omega)]

/-- Three bytes of five. -/
example : ∃ b', getRawData [1, 2, 3, 4, 5] 3 (some ⟨4, fun _ => 9⟩) = some (5, some b') ∧ b'.toList = [1, 2, 3, 9] := ⟨_, rfl, by decide⟩

/-- **C69 (XML).** The text of the metadata handed out is the data of the metadata segment, and it ends with a zero byte: one is added iff the data do not
end with one. The size reported is the size of the data. -/
theorem C69_metadata_xml (raw : List UInt8) (hr : raw ≠ []) :
    ∃ mem, metadataAsXml raw = some (mem, raw.length) ∧ mem.getLast? = some 0 ∧ mem.take raw.length = raw ∧
      mem.length = if raw.getLast? = some 0 then raw.length else raw.length + 1 := by
  unfold metadataAsXml
  obtain ⟨l, b, rfl⟩ : ∃ l b, raw = l ++ [b] := ⟨raw.dropLast, raw.getLast hr, (List.dropLast_append_getLast hr).symm⟩
  rw [List.getLast?_concat]
  dsimp only
  by_cases h : b = 0
  · subst h
    refine ⟨l ++ [0], ?_, by simp, by simp, by simp⟩
    simp
  · refine ⟨l ++ [b] ++ [0], ?_, by simp, List.take_left, by simp [h]⟩
    simp [h]

/-- Without and with the zero. -/
example : metadataAsXml [60, 62] = some ([60, 62, 0], 2) ∧ metadataAsXml [60, 62, 0] = some ([60, 62, 0], 3) := by decide

/-- **C69 (scenes).** The number of scenes is reported; the first of them are written to the array, as many as the caller announced (none for a negative
number), the other entries stay as they are, and nothing is written outside of the array if it has the announced length. -/
theorem C69_scenes {α : Type} (scenes : List α) (available : Int) (len : Nat) (arr : Nat → Option α) (hl : available ≤ len) :
    ∃ arr', scenesEx scenes available len arr = some (min scenes.length available.toNat, arr', scenes.length) ∧
      ∀ j, arr' j = if j < min scenes.length available.toNat then scenes[j]? else arr j := by
  have key : ∀ (rest : List α) (i : Nat) (a : Nat → Option α), ∃ a', sceneLoop available len rest i a = some (i + min rest.length (available.toNat - i), a') ∧
      ∀ j, a' j = if i ≤ j ∧ j < i + min rest.length (available.toNat - i) then rest[j - i]? else a j := by
    intro rest
    induction rest with
    | nil =>
      intro i a
      refine ⟨a, by simp [sceneLoop], fun j => ?_⟩
      rw [if_neg]
      simp only [List.length_nil]; omega
    | cons s ss ih =>
      intro i a
      unfold sceneLoop
      by_cases h : (i : Int) < available
      · rw [if_pos h, if_pos (by omega)]
        obtain ⟨a', e1, e2⟩ := ih (i + 1) (fun j => if j = i then some s else a j)
        have hn : i + 1 + min ss.length (available.toNat - (i + 1)) = i + min (ss.length + 1) (available.toNat - i) := by omega
        refine ⟨a', ?_, fun j => ?_⟩
        · rw [e1, hn]; rfl
        · rw [e2 j, hn, List.length_cons]
          by_cases hj : j = i
          · subst hj
            rw [if_neg (by omega), if_pos rfl, if_pos (by omega)]; simp
          · by_cases hc : i + 1 ≤ j ∧ j < i + min (ss.length + 1) (available.toNat - i)
            · rw [if_pos hc, if_pos (by omega), show j - i = (j - (i + 1)) + 1 by omega, List.getElem?_cons_succ]
            · rw [if_neg hc, if_neg hj, if_neg (by omega)]
      · rw [if_neg h]
        refine ⟨a, ?_, fun j => ?_⟩
        · congr 2
          have : available.toNat - i = 0 := by omega
          rw [this]; simp
        · rw [if_neg (by omega)]
  obtain ⟨a', e1, e2⟩ := key scenes 0 arr
  refine ⟨a', ?_, fun j => ?_⟩
  · unfold scenesEx
    rw [e1]
    simp
  · rw [e2 j]
    simp only [Nat.zero_add, Nat.sub_zero, Nat.zero_le, true_and]

/-- Three scenes, room for two. -/
example : ∃ a', scenesEx [10, 20, 30] 2 2 (fun _ => none) = some (2, a', 3) ∧ a' 0 = some 10 ∧ a' 1 = some 20 ∧ a' 2 = none :=
  ⟨_, rfl, by decide, by decide, by decide⟩

/-! ## C68: adding sub-blocks -/

/-- What the library makes of the arguments, for the general theorems. -/
theorem interop_bitmapArgs {a : AddInterop} {w h bpp : Nat} (ha : InteropArgs a w h bpp) : BitmapArgs a.base a.metadata a.attachment w h bpp := by
  refine ⟨⟨?_, ?_, ha.ints.2.1, ha.ints.2.2.1, ha.ints.2.2.2.1, ha.ints.2.2.2.2, ?_, ?_, (by show IsInt32 0; unfold IsInt32; decide)⟩, ha.pixel, ha.width, ha.height, ha.pos, ha.size, rfl, ha.metadata, ha.attachment⟩
  · intro d v hv
    have := (C69_every_coordinate a.coordinate).values d v hv
    rw [← this]
    exact ha.coordinate _
  · intro m hm
    change (if a.mIndexValid = true then some a.mIndex else none) = some m at hm
    split at hm
    · injection hm with hm; rw [← hm]; exact ha.ints.1
    · cases hm
  all_goals
    have hb : 1 ≤ bpp := by
      have := ha.pixel
      revert this
      generalize pixelTypeFromInt a.pixelType = p
      cases p <;> (intro h; first | (injection h with h; omega) | cases h)
    have h1 : w ≤ w * bpp := Nat.le_mul_of_pos_right _ hb
    have h2 : w * bpp ≤ h * (w * bpp) := Nat.le_mul_of_pos_left _ ha.pos.2
    have h3 : h ≤ h * (w * bpp) := Nat.le_mul_of_pos_right _ (by have := ha.pos; omega)
    have := ha.size
  · show IsInt32 a.physicalWidth
    rw [ha.width]; unfold IsInt32; omega
  · show IsInt32 a.physicalHeight
    rw [ha.height]; unfold IsInt32; omega

/-- **C68 (uncompressed).** Adding an uncompressed bitmap through the C API makes a sub-block that can be written and that is shown with exactly the lines of
the bitmap (padding is dropped, whatever the stride is), the metadata and the attachment. -/
theorem C68_uncompressed (a : AddInterop) (mem : Buf) (w h bpp : Nat) (ha : InteropArgs a w h bpp) (hc : a.compression = 0) (hp : a.data.ptr = some mem)
    (hm : ∀ y < h, y * a.stride + w * bpp ≤ mem.size) :
    ∃ i, a.info = .ok i ∧ Delivers a.base a.metadata a.attachment w h bpp (fun y k => mem.get (y * a.stride + k)) i := by
  unfold AddInterop.info
  rw [if_pos (by rw [hc]; rfl)]
  exact C67_strided (AddStrided.mk a.base a.data.ptr a.stride a.metadata a.attachment) mem w h bpp (interop_bitmapArgs ha) hp hm

theorem pixelTypeValue_known : ∀ i : Int, i ∈ [0, 1, 2, 3, 4, 8, 9, 10, 11, 12, 13] → pixelTypeValue (pixelTypeFromInt i) = i := by
  intro i hi
  simp only [List.mem_cons, List.not_mem_nil, or_false] at hi
  rcases hi with rfl | rfl | rfl | rfl | rfl | rfl | rfl | rfl | rfl | rfl | rfl <;> rfl

/-- **C68 (reported).** What the C API reports of a sub-block that is shown as given: coordinate, M-index, rectangle, size, pixel type and compression. -/
theorem C68_reported (a : AddInterop) (w h bpp : Nat) (f : Nat → Nat → UInt8) (ha : InteropArgs a w h bpp) (hc : a.compression = 0) (sb : SubBlock)
    (hs : Shows a.base a.metadata a.attachment w h bpp f (viewRead sb)) : Reported a (infoInterop sb.info) := by
  obtain ⟨h1, h2, h3, h4, h5, h6, _⟩ := hs.described
  refine ⟨?_, ?_, ?_, ?_, ?_, ?_⟩
  · rw [hc]; exact h2
  · show pixelTypeValue sb.info.pixelType = _
    rw [show sb.info.pixelType = pixelTypeFromInt a.pixelType from h1]
    exact pixelTypeValue_known _ ha.known
  · show Represents (coordToInterop sb.info.coordinate) _
    rw [show sb.info.coordinate = coordFromInterop a.coordinate from h3]
    exact (pack_represents _ _).1
  · exact h5
  · exact h6
  · have h4' : validM sb.info.mIndex = (if a.mIndexValid = true then some a.mIndex else none).bind validM := h4
    show (if sb.info.mIndex ≠ 2147483647 ∧ sb.info.mIndex ≠ -2147483648 then sb.info.mIndex else -2147483648) = _
    have hv : ∀ m : Int, (if m ≠ 2147483647 ∧ m ≠ -2147483648 then m else -2147483648) = (validM m).getD (-2147483648) := by
      intro m
      unfold validM
      by_cases hm : m = -2147483648 ∨ m = 2147483647
      · rw [if_pos hm, if_neg (by omega)]; rfl
      · rw [if_neg hm, if_pos (by omega)]; rfl
    rw [hv, h4']
    by_cases hb : a.mIndexValid = true
    · rw [if_pos hb, Option.bind_some, ← hv]
      by_cases h7 : a.mIndex = 2147483647
      · rw [if_neg (by omega), if_neg (by simp [h7])]
      · rw [show (if a.mIndexValid = true ∧ a.mIndex ≠ 2147483647 then a.mIndex else -2147483648) = a.mIndex from if_pos ⟨hb, h7⟩]
        by_cases h8 : a.mIndex = -2147483648
        · rw [if_neg (by omega), h8]
        · rw [if_pos ⟨h7, h8⟩]
    · rw [if_neg hb, if_neg (by simp [hb])]; rfl

/-- **C68 (read back).** Every uncompressed bitmap added through the C API is found in the finished file: one of its sub-blocks is reported as given, and its raw
data, as copied by the C API, are the lines of the bitmap without padding. -/
theorem C68_read_back (dup : Bool) (d0 : Disk) (info : WriterInfo) (ops : List WOp) (hi : InfoOk info) (hops : OpsOk ops)
    (hsz : ∀ a ∈ subsOf ops, a.sizeData ≤ 2147483647) (o : OpenOptions) (al : Alloc) (hal : ∀ n, al n = true) :
    ∃ disk done doc, writeDoc dup d0 info ops = some (disk, done) ∧ openDoc al disk.stream o = .ok doc ∧
      ∀ (a : AddInterop) (mem : Buf) (w h bpp : Nat), InteropArgs a w h bpp → a.compression = 0 → a.data.ptr = some mem →
        (∀ y < h, y * a.stride + w * bpp ≤ mem.size) → ∀ i ∈ subsOf done, a.info = .ok i →
        ∃ k sb, doc.readSubBlock al disk.stream k = .ok (some sb) ∧ Reported a (infoInterop sb.info) ∧
          Shows a.base a.metadata a.attachment w h bpp (fun y k => mem.get (y * a.stride + k)) (viewRead sb) := by
  obtain ⟨disk, done, doc, e1, e2, e3⟩ := C67_read_back dup d0 info ops hi hops hsz o al hal
  refine ⟨disk, done, doc, e1, e2, ?_⟩
  intro a mem w h bpp ha hc hp hm i hi hinfo
  obtain ⟨i', f1, f2⟩ := C68_uncompressed a mem w h bpp ha hc hp hm
  rw [hinfo] at f1
  injection f1 with f1
  subst f1
  obtain ⟨k, sb, g1, g2⟩ := e3 _ _ _ _ _ _ _ i hi f2
  exact ⟨k, sb, g1, C68_reported a w h bpp _ ha hc sb g2, g2⟩

/-- **C68 is violated for compressed data.** Whatever compression other than "uncompressed" is announced, and whatever the data are, the sub-block made is
marked as uncompressed: no sub-block that is shown as written is reported as given, and for the compression modes of the library its data are not decoded. -/
theorem C68_compression_lost (a : AddInterop) (i : AddInfo) (hc : a.compression ≠ 0) (hi : a.info = .ok i) :
    i.compression = 0 ∧ ∀ sb, viewRead sb = viewAdded i → ¬Reported a (infoInterop sb.info) := by
  have h0 : i.compression = 0 := by
    unfold AddInterop.info at hi
    rw [if_neg] at hi
    · unfold AddMemPtr.info AddBase.with at hi
      split at hi
      · injection hi with hi; rw [← hi]; rfl
      · cases hi
    · intro h
      unfold compressionModeFromInt at h
      rw [if_neg hc] at h
      repeat' (first | cases h | split at h)
  refine ⟨h0, fun sb hs hr => hc ?_⟩
  have h1 := congrArg SbView.compression hs
  change sb.info.compression = i.compression at h1
  rw [← hr.compression]
  show sb.info.compression = 0
  rw [h1, h0]

/-- **C68 is violated for the size of the data.** The size announced for uncompressed data is not looked at: with memory of the announced size that does not
hold all lines, bytes outside of the memory are read. -/
theorem C68_size_not_checked (a : AddInterop) (mem : Buf) (w h bpp : Nat) (ha : InteropArgs a w h bpp) (hc : a.compression = 0) (hp : a.data.ptr = some mem)
    (hm : mem.size < (h - 1) * a.stride + w * bpp) : a.info = .undefined := by
  have hb := interop_bitmapArgs ha
  unfold AddInterop.info
  rw [if_pos (by rw [hc]; rfl)]
  unfold AddStrided.info
  dsimp only
  rw [hb.pixel]
  dsimp only
  have hz : a.base.physicalHeight = h := ha.height
  have hx : a.base.physicalWidth = w := ha.width
  have hpos := ha.pos
  have hlen : toSizeT ((w : Int) * bpp) = w * bpp := by
    have h2 : w * bpp ≤ h * (w * bpp) := Nat.le_mul_of_pos_left _ ha.pos.2
    have := ha.size
    unfold toSizeT
    rw [← Int.natCast_mul]
    omega
  have hg : ∀ (line : Nat → Option (Option (List UInt8))) (n y0 : Nat), (∀ y, line y ≠ some none) → line (y0 + n) = none → linesFrom line y0 (n + 1) = none := by
    intro line n
    induction n with
    | zero => intro y0 _ h; rw [Nat.add_zero] at h; unfold linesFrom; rw [h]
    | succ n ih =>
      intro y0 hy h
      rw [linesFrom]
      cases hl : line y0 with
      | none => rfl
      | some c =>
        cases c with
        | none => exact absurd hl (hy y0)
        | some c =>
          dsimp only
          rw [ih (y0 + 1) hy (by rw [show y0 + 1 + n = y0 + (n + 1) by omega]; exact h)]; rfl
  rw [hz, hx, hlen, Int.toNat_natCast, show h = (h - 1) + 1 by omega, hg]
  · rfl
  · intro y
    unfold AddStrided.bytes
    rw [show (AddStrided.mk a.base a.data.ptr a.stride a.metadata a.attachment).ptr = some mem from hp]
    dsimp only
    cases memBytes mem (y * a.stride) (w * bpp) <;> simp
  · unfold AddStrided.bytes memBytes
    rw [show (AddStrided.mk a.base a.data.ptr a.stride a.metadata a.attachment).ptr = some mem from hp]
    dsimp only
    rw [if_neg (by rw [Nat.zero_add]; omega)]; rfl

/-- Two lines of two pixels with a stride of 3, without metadata. -/
def exInterop : AddInterop where
  coordinate := ⟨0b10, fun _ => 4⟩
  mIndexValid := true
  mIndex := 3
  x := 10
  y := 20
  logicalWidth := 2
  logicalHeight := 2
  physicalWidth := 2
  physicalHeight := 2
  pixelType := 0
  compression := 0
  data := ⟨some (Buf.ofList [1, 2, 99, 3, 4]), 5⟩
  stride := 3
  metadata := ⟨none, 0⟩
  attachment := ⟨none, 0⟩

theorem exInterop_args : InteropArgs exInterop 2 2 1 where
  coordinate := fun _ => by show IsInt32 4; unfold IsInt32; decide
  ints := by unfold IsInt32; decide
  known := by decide
  pixel := rfl
  width := rfl
  height := rfl
  pos := by decide
  size := by decide
  metadata := ⟨Or.inl rfl, by decide⟩
  attachment := ⟨Or.inl rfl, by decide⟩

/-- The hypotheses of C68 are met. -/
example : ∃ i, exInterop.info = .ok i ∧ Delivers exInterop.base exInterop.metadata exInterop.attachment 2 2 1 (fun y k => (Buf.ofList [1, 2, 99, 3, 4]).get (y * 3 + k)) i :=
  C68_uncompressed exInterop (Buf.ofList [1, 2, 99, 3, 4]) 2 2 1 exInterop_args rfl rfl (by decide)

/-- The same with 4 bytes. -/
example : ({ exInterop with data := ⟨some (Buf.ofList [1, 2, 99, 3]), 4⟩ } : AddInterop).info = .undefined :=
  C68_size_not_checked { exInterop with data := ⟨some (Buf.ofList [1, 2, 99, 3]), 4⟩ } (Buf.ofList [1, 2, 99, 3]) 2 2 1
    ⟨exInterop_args.coordinate, exInterop_args.ints, exInterop_args.known, rfl, rfl, rfl, by decide, by decide, exInterop_args.metadata, exInterop_args.attachment⟩
    rfl rfl (by decide)

/-- Zstd-compressed data are marked as uncompressed. -/
example : ∃ i, ({ exInterop with compression := 5 } : AddInterop).info = .ok i ∧ i.compression = 0 := ⟨_, rfl, rfl⟩

end Verif
