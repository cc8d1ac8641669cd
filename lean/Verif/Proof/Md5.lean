import Verif.Model.Md5
import Verif.Spec.Md5
import Verif.Proof.Codec

/-! Lemmas about the MD5 implementation. -/

namespace Verif.Md5

open Verif.Czi Verif.Spec.Md5

/-- The registers as the state of the specification. -/
def Regs.state (r : Regs) : State := (r.a, r.b, r.c, r.d)

theorem u32_ext {a b : UInt32} (h : ∀ i, i < 32 → a.toBitVec.getLsbD i = b.toBitVec.getLsbD i) : a = b := by
  apply UInt32.toBitVec_inj.1
  apply BitVec.eq_of_getLsbD_eq
  exact h

theorem eval_F (x y z : UInt32) : Fn.eval .F x y z = aux 0 x y z := by
  apply u32_ext
  intro i hi
  simp only [Fn.eval, aux, UInt32.toBitVec_xor, UInt32.toBitVec_and, UInt32.toBitVec_or, UInt32.toBitVec_not,
    BitVec.getLsbD_xor, BitVec.getLsbD_and, BitVec.getLsbD_or, BitVec.getLsbD_not, hi, decide_true, Bool.true_and]
  cases x.toBitVec.getLsbD i <;> cases y.toBitVec.getLsbD i <;> cases z.toBitVec.getLsbD i <;> rfl

theorem eval_G (x y z : UInt32) : Fn.eval .G x y z = aux 1 x y z := by
  apply u32_ext
  intro i hi
  simp only [Fn.eval, aux, UInt32.toBitVec_xor, UInt32.toBitVec_and, UInt32.toBitVec_or, UInt32.toBitVec_not,
    BitVec.getLsbD_xor, BitVec.getLsbD_and, BitVec.getLsbD_or, BitVec.getLsbD_not, hi, decide_true, Bool.true_and]
  cases x.toBitVec.getLsbD i <;> cases y.toBitVec.getLsbD i <;> cases z.toBitVec.getLsbD i <;> rfl

def fnOf : Nat → Fn
  | 0 => .F | 1 => .G | 2 => .H | _ => .I

theorem eval_fnOf (k : Nat) (x y z : UInt32) : (fnOf k).eval x y z = aux k x y z := by
  match k with
  | 0 => exact eval_F x y z
  | 1 => exact eval_G x y z
  | 2 => rfl
  | _ + 3 => rfl

theorem word_eq (blk : List UInt8) (n : Nat) (h : 4 * n + 4 ≤ blk.length) : word blk n = X blk n := by
  have e : (blk.drop (4 * n)).take 4 =
      [blk.getD (n * 4 + 0) 0, blk.getD (n * 4 + 1) 0, blk.getD (n * 4 + 2) 0, blk.getD (n * 4 + 3) 0] := by
    apply List.ext_getElem?
    intro i
    rw [List.getElem?_take]
    rcases i with _ | _ | _ | _ | i
    · simp only [List.getElem?_drop, List.getD_eq_getElem?_getD, Nat.add_zero, Nat.mul_comm n 4]
      rw [List.getElem?_eq_getElem (by omega)]; simp
    · simp only [List.getElem?_drop, List.getD_eq_getElem?_getD, Nat.mul_comm n 4]
      rw [List.getElem?_eq_getElem (by omega)]; simp [List.getElem?_eq_getElem (show 4 * n + 1 < blk.length by omega)]
    · simp only [List.getElem?_drop, List.getD_eq_getElem?_getD, Nat.mul_comm n 4]
      rw [List.getElem?_eq_getElem (by omega)]; simp [List.getElem?_eq_getElem (show 4 * n + 2 < blk.length by omega)]
    · simp only [List.getElem?_drop, List.getD_eq_getElem?_getD, Nat.mul_comm n 4]
      rw [List.getElem?_eq_getElem (by omega)]; simp [List.getElem?_eq_getElem (show 4 * n + 3 < blk.length by omega)]
    · simp; intro hh; omega
  unfold X word
  rw [e]
  generalize blk.getD (n * 4 + 0) 0 = b0
  generalize blk.getD (n * 4 + 1) 0 = b1
  generalize blk.getD (n * 4 + 2) 0 = b2
  generalize blk.getD (n * 4 + 3) 0 = b3
  apply UInt32.toNat_inj.1
  have h0 := b0.toNat_lt
  have h1 := b1.toNat_lt
  have h2 := b2.toNat_lt
  have h3 := b3.toNat_lt
  simp only [UInt32.toNat_or, UInt32.toNat_shiftLeft, UInt8.toNat_toUInt32, UInt32.toNat_ofNat, unle]
  have o1 : b0.toNat ||| b1.toNat <<< 8 = b1.toNat <<< 8 + b0.toNat := by
    rw [Nat.or_comm, Nat.shiftLeft_add_eq_or_of_lt (by omega)]
  have s1 : b1.toNat <<< 8 + b0.toNat < 2 ^ 16 := by rw [Nat.shiftLeft_eq]; omega
  have o2 : (b1.toNat <<< 8 + b0.toNat) ||| b2.toNat <<< 16 = b2.toNat <<< 16 + (b1.toNat <<< 8 + b0.toNat) := by
    rw [Nat.or_comm, Nat.shiftLeft_add_eq_or_of_lt s1]
  have s2 : b2.toNat <<< 16 + (b1.toNat <<< 8 + b0.toNat) < 2 ^ 24 := by
    rw [Nat.shiftLeft_eq, Nat.shiftLeft_eq]; omega
  have o3 : (b2.toNat <<< 16 + (b1.toNat <<< 8 + b0.toNat)) ||| b3.toNat <<< 24 =
      b3.toNat <<< 24 + (b2.toNat <<< 16 + (b1.toNat <<< 8 + b0.toNat)) := by
    rw [Nat.or_comm, Nat.shiftLeft_add_eq_or_of_lt s2]
  have m0 : b0.toNat <<< (0 % 2 ^ 32 % 32) % 2 ^ 32 = b0.toNat := by
    show b0.toNat <<< 0 % 2 ^ 32 = _
    rw [Nat.shiftLeft_zero]; omega
  have m1 : b1.toNat <<< (8 % 2 ^ 32 % 32) % 2 ^ 32 = b1.toNat <<< 8 := by
    show b1.toNat <<< 8 % 2 ^ 32 = _
    rw [Nat.shiftLeft_eq]; omega
  have m2 : b2.toNat <<< (16 % 2 ^ 32 % 32) % 2 ^ 32 = b2.toNat <<< 16 := by
    show b2.toNat <<< 16 % 2 ^ 32 = _
    rw [Nat.shiftLeft_eq]; omega
  have m3 : b3.toNat <<< (24 % 2 ^ 32 % 32) % 2 ^ 32 = b3.toNat <<< 24 := by
    show b3.toNat <<< 24 % 2 ^ 32 = _
    rw [Nat.shiftLeft_eq]; omega
  rw [m0, m1, m2, m3, o1, o2, o3, UInt32.toNat_ofNat']
  clear m0 m1 m2 m3 o1 o2 o3
  simp only [Nat.shiftLeft_eq]
  omega

/-- Which register plays which role in operation `i`. -/
def role (i : Nat) : Reg × Reg × Reg × Reg :=
  match i % 4 with
  | 0 => (.a, .b, .c, .d) | 1 => (.d, .a, .b, .c) | 2 => (.c, .d, .a, .b) | _ => (.b, .c, .d, .a)

/-- The registers in the roles of operation `i`. -/
def view (r : Regs) (i : Nat) : State := (r.get (role i).1, r.get (role i).2.1, r.get (role i).2.2.1, r.get (role i).2.2.2)

/-- The step that operation `i` should be. -/
def expected (i : Nat) : Step :=
  ⟨fnOf (i / 16), (role i).1, (role i).2.1, (role i).2.2.1, (role i).2.2.2, wordIndex i, T.getD i 0, shift i⟩

theorem steps_expected : steps = (List.range 64).map expected := by decide +kernel

theorem wordIndex_lt (i : Nat) (h : i < 64) : wordIndex i < 16 := by
  have : ∀ i, i < 64 → wordIndex i < 16 := by decide +kernel
  exact this i h

theorem run_expected (blk : List UInt8) (hb : blk.length = 64) (r : Regs) (i : Nat) (hi : i < 64) :
    view (Step.run (word blk) r (expected i)) (i + 1) = operation blk (view r i) i := by
  have hw := word_eq blk (wordIndex i) (by have := wordIndex_lt i hi; omega)
  have hm : i % 4 = 0 ∨ i % 4 = 1 ∨ i % 4 = 2 ∨ i % 4 = 3 := by omega
  unfold operation
  rcases hm with h | h | h | h
  · have h' : (i + 1) % 4 = 1 := by omega
    simp only [view, role, h, h', expected, Step.run, Regs.get, Regs.set, eval_fnOf, hw, rotateLeft, rotl]
    rw [UInt32.add_comm]
  · have h' : (i + 1) % 4 = 2 := by omega
    simp only [view, role, h, h', expected, Step.run, Regs.get, Regs.set, eval_fnOf, hw, rotateLeft, rotl]
    rw [UInt32.add_comm]
  · have h' : (i + 1) % 4 = 3 := by omega
    simp only [view, role, h, h', expected, Step.run, Regs.get, Regs.set, eval_fnOf, hw, rotateLeft, rotl]
    rw [UInt32.add_comm]
  · have h' : (i + 1) % 4 = 0 := by omega
    simp only [view, role, h, h', expected, Step.run, Regs.get, Regs.set, eval_fnOf, hw, rotateLeft, rotl]
    rw [UInt32.add_comm]

theorem run_range (blk : List UInt8) (hb : blk.length = 64) (r : Regs) (n : Nat) (hn : n ≤ 64) :
    view (((List.range n).map expected).foldl (Step.run (word blk)) r) n = (List.range n).foldl (operation blk) (view r 0) := by
  induction n with
  | zero => rfl
  | succ n ih =>
    rw [List.range_succ, List.map_append, List.foldl_append, List.foldl_append]
    simp only [List.map_cons, List.map_nil, List.foldl_cons, List.foldl_nil]
    rw [run_expected blk hb _ n (by omega), ih (by omega)]

theorem transformBlock_eq (r : Regs) (blk : List UInt8) (hb : blk.length = 64) :
    (transformBlock r blk).state = compress r.state blk := by
  have h := run_range blk hb r 64 (by omega)
  rw [← steps_expected] at h
  have h0 : view r 0 = r.state := rfl
  rw [h0] at h
  unfold transformBlock compress
  rw [← h]
  generalize steps.foldl (Step.run (word blk)) r = t
  rfl

/-! ## Sequences of blocks -/

theorem process_short {s : State} {m : List UInt8} (h : m.length < 64) : process s m = s := by
  rw [process, if_neg (by omega)]

theorem process_step {s : State} {m : List UInt8} (h : 64 ≤ m.length) :
    process s m = process (compress s (m.take 64)) (m.drop 64) := by
  rw [process, if_pos h]

theorem process_append (k : Nat) (s : State) (x y : List UInt8) (h : x.length = 64 * k) :
    process s (x ++ y) = process (process s x) y := by
  induction k generalizing s x with
  | zero =>
    have : x = [] := List.eq_nil_of_length_eq_zero (by omega)
    subst this
    rw [process_short (s := s) (m := []) (by simp)]
    rfl
  | succ k ih =>
    rw [process_step (m := x) (by omega), process_step (m := x ++ y) (by simp; omega),
      List.take_append_of_le_length (by omega), List.drop_append_of_le_length (by omega)]
    exact ih _ _ (by simp; omega)

theorem transform_eq (k : Nat) (r : Regs) (data : List UInt8) (hk : 0 < k) (h : 64 * k ≤ data.length) (hs : 64 * k < 2 ^ 64) :
    ∃ r', transform r data (64 * k) = some (r', data.drop (64 * k)) ∧ r'.state = process r.state (data.take (64 * k)) := by
  induction k generalizing r data with
  | zero => omega
  | succ k ih =>
    rw [transform, dif_pos (by omega)]
    dsimp only
    have hsz : (64 * (k + 1) + (2 ^ 64 - 64)) % 2 ^ 64 = 64 * k := by omega
    rw [hsz]
    have hb := transformBlock_eq r (data.take 64) (by simp; omega)
    have hstep : process r.state (data.take (64 * (k + 1))) = process (compress r.state (data.take 64)) ((data.drop 64).take (64 * k)) := by
      rw [process_step (by simp; omega), List.take_take, List.drop_take]
      rw [show min 64 (64 * (k + 1)) = 64 by omega, show 64 * (k + 1) - 64 = 64 * k by omega]
    by_cases h0 : k = 0
    · subst h0
      rw [if_pos (by omega)]
      refine ⟨_, rfl, ?_⟩
      rw [hstep, process_short (by simp), hb]
    · rw [if_neg (by omega)]
      obtain ⟨r', h1, h2⟩ := ih (transformBlock r (data.take 64)) (data.drop 64) (by omega) (by simp; omega) (by omega)
      refine ⟨r', ?_, ?_⟩
      · rw [h1, List.drop_drop, show 64 + 64 * k = 64 * (k + 1) by omega]
      · rw [h2, hb, hstep]

/-- The context after the message `m` has been given to it. -/
structure Rep (c : Ctx) (m : List UInt8) : Prop where
  low : c.count0 = m.length % 2 ^ 29
  high : c.count1 = m.length / 2 ^ 29 % 2 ^ 32
  len : c.input.length = 64
  regs : c.regs.state = process init (m.take (m.length / 64 * 64))
  rest : c.input.take (m.length % 64) = m.drop (m.length / 64 * 64)

theorem overlay_ok {l src : List UInt8} {pos : Nat} (h : pos + src.length ≤ 64) :
    overlay l pos src = some (l.take pos ++ src ++ l.drop (pos + src.length)) := by
  rw [overlay, if_pos h]

theorem updateTail_rep (c : Ctx) (p data : List UInt8) (hd : data.length < 2 ^ 32) (hp : p.length % 64 = 0)
    (h0 : c.count0 = (p ++ data).length % 2 ^ 29) (h1 : c.count1 = (p ++ data).length / 2 ^ 29 % 2 ^ 32)
    (hl : c.input.length = 64) (hr : c.regs.state = process init p) :
    ∃ c', updateTail c data = some c' ∧ Rep c' (p ++ data) := by
  have hpe : p.length = 64 * (p.length / 64) := by omega
  unfold updateTail
  have hlen : (p ++ data).length = p.length + data.length := List.length_append
  have hmod : (p ++ data).length % 64 = data.length % 64 := by rw [hlen]; omega
  have hdiv : (p ++ data).length / 64 * 64 = p.length + data.length / 64 * 64 := by rw [hlen]; omega
  have htake : (p ++ data).take ((p ++ data).length / 64 * 64) = p ++ data.take (data.length / 64 * 64) := by
    rw [hdiv, List.take_append, List.take_of_length_le (by omega)]
    congr 2
    omega
  have hdrop : (p ++ data).drop ((p ++ data).length / 64 * 64) = data.drop (data.length / 64 * 64) := by
    rw [hdiv, List.drop_append, List.drop_of_length_le (by omega)]
    simp
  by_cases h : data.length ≥ 64
  · rw [if_pos h]
    have e : data.length % 2 ^ 32 / 64 * 64 = 64 * (data.length / 64) := by omega
    rw [e]
    obtain ⟨r', ht, hs⟩ := transform_eq (data.length / 64) c.regs data (by omega) (by omega) (by omega)
    rw [ht]
    simp only [Option.bind_eq_bind, Option.bind_some]
    have hdl : (data.drop (64 * (data.length / 64))).length = data.length % 64 := by simp; omega
    rw [if_pos (by omega), List.take_of_length_le (by omega), overlay_ok (by omega)]
    simp only [Option.bind_some, List.take_zero, List.nil_append, Nat.zero_add]
    refine ⟨_, rfl, ⟨h0, h1, ?_, ?_, ?_⟩⟩
    · dsimp only; rw [List.length_append, hdl, List.length_drop, hl]; omega
    · dsimp only
      rw [hs, htake, process_append _ _ _ _ hpe, hr, Nat.mul_comm 64]
    · dsimp only
      rw [hmod, hdrop, List.take_append_of_le_length (by omega), List.take_of_length_le (by omega), Nat.mul_comm 64]
  · rw [if_neg h, overlay_ok (by omega)]
    simp only [Option.bind_eq_bind, Option.bind_some, List.take_zero, List.nil_append, Nat.zero_add]
    have hz : data.length / 64 * 64 = 0 := by omega
    refine ⟨_, rfl, ⟨h0, h1, ?_, ?_, ?_⟩⟩
    · dsimp only; rw [List.length_append, List.length_drop, hl]; omega
    · dsimp only
      rw [htake, hz, List.take_zero, List.append_nil, hr]
    · dsimp only
      rw [hmod, hdrop, hz, List.drop_zero, List.take_append_of_le_length (by omega), List.take_of_length_le (by omega)]

theorem update_rep (c : Ctx) (m data : List UInt8) (hd : data.length < 2 ^ 32) (h : Rep c m) :
    ∃ c', update c data = some c' ∧ Rep c' (m ++ data) := by
  obtain ⟨hlow, hhigh, hl, hregs, hrest⟩ := h
  have hused : c.count0 % 64 = m.length % 64 := by rw [hlow]; omega
  have hc0 : (c.count0 + data.length) % 2 ^ 29 = (m ++ data).length % 2 ^ 29 := by
    rw [hlow, List.length_append]; omega
  have hc1 : ((if (c.count0 + data.length) % 2 ^ 29 < c.count0 then c.count1 + 1 else c.count1) % 2 ^ 32 + data.length / 2 ^ 29) % 2 ^ 32 =
      (m ++ data).length / 2 ^ 29 % 2 ^ 32 := by
    rw [List.length_append, hlow, hhigh]
    split <;> omega
  unfold update
  dsimp only
  rw [hused]
  have hsplit : m = m.take (m.length / 64 * 64) ++ m.drop (m.length / 64 * 64) := (List.take_append_drop _ _).symm
  have hq : (m.drop (m.length / 64 * 64)).length = m.length % 64 := by simp; omega
  have hpl : (m.take (m.length / 64 * 64)).length = m.length / 64 * 64 := by simp; omega
  by_cases hu : m.length % 64 ≠ 0
  · rw [if_pos hu]
    by_cases hf : data.length < 64 - m.length % 64
    · rw [if_pos hf, overlay_ok (by omega)]
      simp only [Option.bind_eq_bind, Option.bind_some]
      have hlen : (m ++ data).length = m.length + data.length := List.length_append
      have hdiv : (m ++ data).length / 64 * 64 = m.length / 64 * 64 := by rw [hlen]; omega
      have hmod : (m ++ data).length % 64 = m.length % 64 + data.length := by rw [hlen]; omega
      refine ⟨_, rfl, ⟨hc0, hc1, ?_, ?_, ?_⟩⟩
      · dsimp only
        rw [List.length_append, List.length_append, List.length_take, List.length_drop, hl]; omega
      · dsimp only
        rw [hdiv, List.take_append_of_le_length (by omega), hregs]
      · dsimp only
        rw [hdiv, hmod, List.drop_append_of_le_length (by omega), ← hrest, List.take_append_of_le_length (by simp [hl]; omega),
          List.take_of_length_le (by simp [hl]; omega)]
    · rw [if_neg hf, overlay_ok (by simp; omega)]
      simp only [Option.bind_eq_bind, Option.bind_some]
      have hfl : (data.take (64 - m.length % 64)).length = 64 - m.length % 64 := by simp; omega
      have hdropz : c.input.drop (m.length % 64 + (64 - m.length % 64)) = [] := List.drop_of_length_le (by omega)
      rw [hfl, hdropz, List.append_nil, hrest]
      have hil : (m.drop (m.length / 64 * 64) ++ data.take (64 - m.length % 64)).length = 64 := by
        rw [List.length_append, hq, hfl]; omega
      obtain ⟨r', ht, hs⟩ := transform_eq 1 c.regs (m.drop (m.length / 64 * 64) ++ data.take (64 - m.length % 64)) (by omega) (by omega) (by omega)
      rw [show 64 * 1 = 64 from rfl] at ht hs
      rw [ht]
      simp only [Option.bind_some]
      have hs' : r'.state = process init (m ++ data.take (64 - m.length % 64)) := by
        rw [hs, List.take_of_length_le (by omega), hregs, ← process_append (m.length / 64) _ _ _ (by rw [hpl]; omega),
          ← List.append_assoc, ← hsplit]
      have hmd : (m ++ data.take (64 - m.length % 64)) ++ data.drop (64 - m.length % 64) = m ++ data := by
        rw [List.append_assoc, List.take_append_drop]
      have := updateTail_rep ⟨r', (c.count0 + data.length) % 2 ^ 29,
          ((if (c.count0 + data.length) % 2 ^ 29 < c.count0 then c.count1 + 1 else c.count1) % 2 ^ 32 + data.length / 2 ^ 29) % 2 ^ 32,
          m.drop (m.length / 64 * 64) ++ data.take (64 - m.length % 64)⟩
        (m ++ data.take (64 - m.length % 64)) (data.drop (64 - m.length % 64)) (by simp; omega)
        (by rw [List.length_append, hfl]; omega) (by rw [hmd]; exact hc0) (by rw [hmd]; exact hc1) hil hs'
      rw [hmd] at this
      exact this
  · rw [if_neg hu]
    have hme : m.take (m.length / 64 * 64) = m := List.take_of_length_le (by omega)
    rw [hme] at hregs
    exact updateTail_rep _ m data hd (by omega) hc0 hc1 hl hregs

theorem wordBytes_eq (w : UInt32) : wordBytes w = le 4 w.toNat := by
  simp only [wordBytes, le]
  have hw := w.toNat_lt
  have e : ∀ k : Nat, k = 8 ∨ k = 16 ∨ k = 24 → ((w >>> UInt32.ofNat k).toUInt8) = UInt8.ofNat (w.toNat / 2 ^ k) := by
    intro k hk
    apply UInt8.toNat_inj.1
    rcases hk with rfl | rfl | rfl <;>
    · simp only [UInt32.toNat_toUInt8, UInt32.toNat_shiftRight, UInt32.toNat_ofNat, UInt8.toNat_ofNat', Nat.shiftRight_eq_div_pow]
      rfl
  have e8 := e 8 (by simp)
  have e16 := e 16 (by simp)
  have e24 := e 24 (by simp)
  have e0 : w.toUInt8 = UInt8.ofNat w.toNat := by
    apply UInt8.toNat_inj.1
    simp only [UInt32.toNat_toUInt8, UInt8.toNat_ofNat']
  rw [e0]
  rw [show (w >>> 8).toUInt8 = _ from e8, show (w >>> 16).toUInt8 = _ from e16, show (w >>> 24).toUInt8 = _ from e24]
  rw [Nat.div_div_eq_div_mul, Nat.div_div_eq_div_mul]

theorem le_split (v : Nat) : le 8 v = le 4 (v % 2 ^ 32) ++ le 4 (v / 2 ^ 32) := by
  have e : ∀ a b : Nat, a % 256 = b % 256 → UInt8.ofNat a = UInt8.ofNat b := by
    intro a b h
    apply UInt8.toNat_inj.1
    simpa using h
  simp only [le, List.cons_append, List.nil_append]
  rw [e (v % 2 ^ 32) v (by omega), e (v % 2 ^ 32 / 256) (v / 256) (by omega), e (v % 2 ^ 32 / 256 / 256) (v / 256 / 256) (by omega),
    e (v % 2 ^ 32 / 256 / 256 / 256) (v / 256 / 256 / 256) (by omega)]
  have d : v / 2 ^ 32 = v / 256 / 256 / 256 / 256 := by omega
  rw [d]

theorem le_mod4 (v : Nat) : le 4 (v % 2 ^ 32) = le 4 v := by
  have e : ∀ a b : Nat, a % 256 = b % 256 → UInt8.ofNat a = UInt8.ofNat b := by
    intro a b h
    apply UInt8.toNat_inj.1
    simpa using h
  simp only [le]
  rw [e (v % 2 ^ 32) v (by omega), e (v % 2 ^ 32 / 256) (v / 256) (by omega), e (v % 2 ^ 32 / 256 / 256) (v / 256 / 256) (by omega),
    e (v % 2 ^ 32 / 256 / 256 / 256) (v / 256 / 256 / 256) (by omega)]

theorem lengthBytes (n : Nat) : le 8 (8 * n) =
    wordBytes (UInt32.ofNat (n % 2 ^ 29 * 8)) ++ wordBytes (UInt32.ofNat (n / 2 ^ 29 % 2 ^ 32)) := by
  rw [wordBytes_eq, wordBytes_eq, le_split]
  simp only [UInt32.toNat_ofNat']
  rw [le_mod4 (n / 2 ^ 29 % 2 ^ 32), le_mod4 (n / 2 ^ 29)]
  congr 2
  · omega
  · omega

end Verif.Md5
