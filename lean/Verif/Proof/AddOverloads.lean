import Verif.Proof.Segments
import Verif.Spec.AddOverloads

/-! # Lemmas about the convenience forms of adding a sub-block -/

namespace Verif.Czi

open Verif.Spec

theorem memBytes_some {b : Buf} {off n : Nat} (h : off + n ≤ b.size) : memBytes b off n = some ((List.range n).map fun i => b.get (off + i)) := by
  unfold memBytes; rw [if_pos h]

theorem linesFrom_some {line : Nat → Option (Option (List UInt8))} {g : Nat → List UInt8} (n : Nat) : ∀ y0,
    (∀ y, y0 ≤ y → y < y0 + n → line y = some (some (g y))) → linesFrom line y0 n = some ⟨(List.range n).map fun k => g (y0 + k), false⟩ := by
  induction n with
  | zero => intro y0 _; rfl
  | succ n ih =>
    intro y0 h
    unfold linesFrom
    rw [h y0 (by omega) (by omega)]
    dsimp only
    rw [ih (y0 + 1) (fun y h1 h2 => h y (by omega) (by omega)), List.range_succ_eq_map]
    simp only [Option.map_some, List.map_cons, List.map_map, Nat.add_zero]
    congr 3
    apply List.map_congr_left
    intro k _
    show g (y0 + 1 + k) = g (y0 + (k + 1))
    rw [show y0 + 1 + k = y0 + (k + 1) by omega]

theorem linesFrom_none {line : Nat → Option (Option (List UInt8))} {g : Nat → List UInt8} (n : Nat) : ∀ y0 y, y0 ≤ y → y < y0 + n → line y = none →
    (∀ z, y0 ≤ z → z < y → line z = some (some (g z))) → linesFrom line y0 n = none := by
  induction n with
  | zero => intro y0 y h1 h2; omega
  | succ n ih =>
    intro y0 y h1 h2 hn hb
    unfold linesFrom
    by_cases e : y0 = y
    · subst e; rw [hn]
    · rw [hb y0 (Nat.le_refl _) (by omega)]
      dsimp only
      rw [ih (y0 + 1) y (by omega) (by omega) hn (fun z h3 h4 => hb z (by omega) h4)]
      rfl

theorem flatten_rows_length {g : Nat → List UInt8} {len : Nat} (hl : ∀ y, (g y).length = len) (n : Nat) :
    ((List.range n).map g).flatten.length = n * len := by
  induction n with
  | zero => simp
  | succ n ih =>
    rw [List.range_succ, List.map_append, List.flatten_append, List.length_append, ih, Nat.succ_mul]
    simp [hl]

theorem flatten_rows_get {g : Nat → List UInt8} {len : Nat} (hl : ∀ y, (g y).length = len) (n y i : Nat) (hy : y < n) (hi : i < len) :
    ((List.range n).map g).flatten[y * len + i]? = (g y)[i]? := by
  induction n with
  | zero => omega
  | succ n ih =>
    rw [List.range_succ, List.map_append, List.flatten_append]
    by_cases e : y < n
    · rw [List.getElem?_append_left ?_, ih e]
      rw [flatten_rows_length hl]
      have : (y + 1) * len ≤ n * len := Nat.mul_le_mul_right _ (by omega)
      rw [Nat.succ_mul] at this
      omega
    · have : y = n := by omega
      subst this
      rw [List.getElem?_append_right (by rw [flatten_rows_length hl]; omega), flatten_rows_length hl]
      rw [show y * len + i - y * len = i by omega]
      simp

theorem toSizeT_nat {n : Nat} (h : n < 18446744073709551616) : toSizeT (n : Int) = n := by
  unfold toSizeT; omega

theorem source_valid {g : Given} (h : Valid g) : ∃ s, g.source = some s ∧ NoNull g.size (some s) ∧ ShortBy4096 g.size (some s) ∧
    Shown g (payloadView g.size (some s)) := by
  unfold Given.source
  rcases h with h | ⟨b, hb, hs⟩
  · have hsh : ∀ s, Shown g (payloadView g.size (some s)) := by
      intro s
      unfold Shown payloadView
      rw [h]
      exact ⟨rfl, rfl⟩
    cases hp : g.ptr with
    | none => exact ⟨_, rfl, fun s _ _ => by rw [h]; omega, fun s _ => by rw [h]; omega, hsh _⟩
    | some b =>
      dsimp only
      rw [memBytes_some (by omega)]
      exact ⟨_, rfl, fun s _ _ => by rw [h]; omega, fun s _ => by rw [h]; omega, hsh _⟩
  · rw [hb]
    dsimp only
    rw [memBytes_some (by omega)]
    refine ⟨_, rfl, ?_, ?_, rfl, ?_⟩
    · intro s hs' hn
      injection hs' with hs'; subst hs'; cases hn
    · intro s hs'
      injection hs' with hs'; subst hs'
      simp
    · by_cases h0 : g.size = 0
      · rw [if_pos h0]; unfold payloadView; rw [h0]; rfl
      · rw [if_neg h0]
        refine ⟨b, (List.range g.size).map (fun i => b.get (0 + i)), hb, ?_, by simp, ?_⟩
        · unfold payloadView payloadOf
          dsimp only
          rw [if_neg h0]
          congr 1
          simp only [List.flatten_cons, List.flatten_nil, List.append_nil]
          rw [List.take_append_of_le_length (by simp), List.take_of_length_le (by simp)]
        · intro i hi
          simp [hi]

/-- What is passed on delivers the picture given by the bytes of the data. -/
theorem delivers_of {b : AddBase} {metadata attachment : Given} {w h bpp n : Nat} {chunks : List (List UInt8)} {f : Nat → Nat → UInt8}
    (ha : BitmapArgs b metadata attachment w h bpp) (hn : chunks.flatten.length = n) (hn1 : n ≤ 2147483647) (hn2 : h * (w * bpp) ≤ n)
    (hf : ∀ y < h, ∀ i < w * bpp, chunks.flatten[y * (w * bpp) + i]? = some (f y i)) :
    ∃ a, b.with n (some ⟨chunks, false⟩) metadata attachment = .ok a ∧ Delivers b metadata attachment w h bpp f a := by
  obtain ⟨m, hm1, hm2, hm3, hm4⟩ := source_valid ha.metadata.1
  obtain ⟨at', ha1, ha2, ha3, ha4⟩ := source_valid ha.attachment.1
  have hbpp : 0 < bpp := by
    have := ha.pixel
    cases hp : b.pixelType <;> rw [hp] at this <;> simp [bytesPerPel] at this <;> omega
  have hpos : 0 < h * (w * bpp) := Nat.mul_pos ha.pos.2 (Nat.mul_pos ha.pos.1 hbpp)
  unfold AddBase.with
  rw [hm1, ha1]
  refine ⟨_, rfl, ⟨⟨?_, ?_, ha.metadata.2, ?_, ha.attachment.2⟩, hn1⟩, ?_, ?_, hm4, ha4⟩
  · exact ⟨ha.fits.coordinate, ha.fits.mIndex, ha.fits.x, ha.fits.y, ha.fits.logicalWidth, ha.fits.logicalHeight, ha.fits.physicalWidth,
      ha.fits.physicalHeight, ha.fits.compression⟩
  · refine ⟨⟨hm2, hm3⟩, ⟨?_, ?_⟩, ⟨ha2, ha3⟩⟩
    · intro s hs hs'
      injection hs with hs; subst hs; cases hs'
    · intro s hs
      injection hs with hs; subst hs
      show n ≤ chunks.flatten.length + 4096
      omega
  · show n < 2 ^ 59
    omega
  · exact ⟨rfl, rfl, rfl, rfl, rfl, rfl, rfl⟩
  · have hl : ∀ a : AddInfo, a.sizeData = n → a.data = some ⟨chunks, false⟩ → (viewAdded a).data = ⟨n, some chunks.flatten⟩ := by
      intro a e1 e2
      unfold viewAdded payloadView payloadOf
      dsimp only
      rw [e1, e2, if_neg (by omega)]
      dsimp only
      rw [List.take_append_of_le_length (by omega), List.take_of_length_le (by omega)]
    refine ⟨ha.uncompressed, ?_, chunks.flatten, ?_, ?_, ?_⟩
    · show (b.physicalWidth, b.physicalHeight) = _
      rw [ha.width, ha.height]
    · rw [hl _ rfl rfl]
    · rw [hl _ rfl rfl, hn]
    · intro fresh mismatch
      unfold Zstd.uncompressed
      rw [show (viewAdded _).pixelType = b.pixelType from rfl, ha.pixel]
      dsimp only
      have hle : w * bpp * h ≤ chunks.flatten.length := by rw [Nat.mul_comm, hn]; exact hn2
      rw [if_pos hle]
      refine ⟨_, rfl, rfl, rfl, ?_⟩
      intro y hy i hi
      show Buf.read ⟨w * bpp * h, (Buf.ofList chunks.flatten).get⟩ (y * (w * bpp) + i) = _
      have h1 : (y + 1) * (w * bpp) ≤ h * (w * bpp) := Nat.mul_le_mul_right _ (by omega)
      rw [Nat.succ_mul] at h1
      have h2 : w * bpp * h = h * (w * bpp) := Nat.mul_comm _ _
      unfold Buf.read Buf.ofList
      dsimp only
      rw [if_pos (by omega), List.getD_eq_getElem?_getD, hf y hy i hi]
      rfl

theorem strided_lines {s : AddStrided} {mem : Buf} (hp : s.ptr = some mem) (off : Nat → Nat) (len h : Nat) (hm : ∀ y < h, off y + len ≤ mem.size) :
    linesFrom (fun y => s.bytes (off y) len) 0 h = some ⟨(List.range h).map fun y => (List.range len).map fun i => mem.get (off y + i), false⟩ := by
  rw [linesFrom_some (g := fun y => (List.range len).map fun i => mem.get (off y + i)) h 0 ?_]
  · simp
  · intro y _ hy
    unfold AddStrided.bytes
    rw [hp]
    dsimp only
    rw [memBytes_some (hm y (by omega))]
    rfl

theorem linewise_lines {s : AddLinewise} {mem : Nat → Buf} (len h : Nat) (hm : ∀ y < h, s.line y = some (mem y) ∧ len ≤ (mem y).size) :
    linesFrom (s.bytes len) 0 h = some ⟨(List.range h).map fun y => (List.range len).map fun i => (mem y).get i, false⟩ := by
  rw [linesFrom_some (g := fun y => (List.range len).map fun i => (mem y).get i) h 0 ?_]
  · simp
  · intro y _ hy
    unfold AddLinewise.bytes
    rw [(hm y (by omega)).1]
    dsimp only
    rw [memBytes_some (by have := (hm y (by omega)).2; omega)]
    simp

end Verif.Czi

namespace Verif.Czi

theorem Plan.ok_of_bind {α β : Type} {x : Plan α} {f : α → Plan β} {b : β} (h : (x >>= f).result = .ok b) : ∃ a, x.result = .ok a ∧ (f a).result = .ok b := by
  rcases x with ⟨ws, r⟩
  cases r with
  | error e => cases h
  | ok a => exact ⟨a, rfl, h⟩

theorem Plan.ok_of_guard {α : Type} {c : Prop} [Decidable c] {e : WErr} {p : Plan α} {b : α} (h : (if c then Plan.throw e else p).result = .ok b) : p.result = .ok b := by
  by_cases hc : c
  · rw [if_pos hc] at h; cases h
  · rwa [if_neg hc] at h

theorem writeSubBlock_null {pos : Nat} {specified : Option Nat} {a : AddInfo} (hs : a.sizeData < 2 ^ 63) (hf : payloadFails a.sizeData a.data) :
    ∀ n, (writeSubBlock pos specified a).result ≠ .ok n := by
  intro n h
  unfold writeSubBlock at h
  have h := Plan.ok_of_guard h
  have h := Plan.ok_of_guard h
  dsimp only at h
  obtain ⟨_, _, h⟩ := Plan.ok_of_bind h
  obtain ⟨_, _, h⟩ := Plan.ok_of_bind h
  obtain ⟨m, _, h⟩ := Plan.ok_of_bind h
  obtain ⟨_, h1, _⟩ := Plan.ok_of_bind h
  obtain ⟨ws, e, _⟩ := writePayload_fail (pos + (a.segSize + m)) a.sizeData a.data hs hf
  rw [e] at h1
  cases h1

theorem runPhases_second {p q : Phase} {s : Sys} {fs : List Fault} (hq : ∀ w w', (q w).result ≠ .ok w') : (runPhases [p, q] s fs).2.1 ≠ none := by
  intro h
  unfold runPhases at h
  dsimp only at h
  split at h
  · split at h
    · unfold runPhases at h
      dsimp only at h
      split at h
      · split at h
        · rename_i hw
          exact hq _ _ hw
        · cases h
      · cases h
    · cases h
  · cases h

theorem addSubBlock_null (s : Sys) (fs : List Fault) {a : AddInfo} (hs : a.sizeData < 2 ^ 63) (hf : payloadFails a.sizeData a.data) :
    (stepOp s (.addSubBlock a) fs).2.1 ≠ none := by
  unfold stepOp WOp.phases addSubBlockPhases
  refine runPhases_second fun w w' hw => ?_
  obtain ⟨n, h1, _⟩ := Plan.ok_of_bind hw
  exact writeSubBlock_null hs hf n h1

theorem linesFrom_null {line : Nat → Option (Option (List UInt8))} {g : Nat → List UInt8} : ∀ (j y n : Nat), j < n → (∀ k < j, line (y + k) = some (some (g (y + k)))) →
    line (y + j) = some none → linesFrom line y n = some ⟨(List.range j).map fun k => g (y + k), true⟩ := by
  intro j
  induction j with
  | zero =>
    intro y n hn _ h
    obtain ⟨n, rfl⟩ : ∃ m, n = m + 1 := ⟨n - 1, by omega⟩
    unfold linesFrom
    rw [Nat.add_zero] at h
    rw [h]
    rfl
  | succ j ih =>
    intro y n hn hk h
    obtain ⟨n, rfl⟩ : ∃ m, n = m + 1 := ⟨n - 1, by omega⟩
    have h0 := hk 0 (by omega)
    rw [Nat.add_zero] at h0
    unfold linesFrom
    rw [h0]
    dsimp only
    rw [ih (y + 1) n (by omega) (fun k hj => by rw [Nat.add_right_comm]; exact hk (k + 1) (by omega)) (by rw [Nat.add_right_comm]; exact h)]
    rw [List.range_succ_eq_map]
    simp only [Option.map_some, List.map_cons, List.map_map, Nat.add_zero, Option.some.injEq, Source.mk.injEq, List.cons.injEq, true_and, and_true]
    apply List.map_congr_left
    intro k _
    show g _ = g _
    congr 1
    omega

end Verif.Czi
