import Verif.Proof.XmlValue

/-!
# C62: values and attributes of metadata nodes
-/

namespace Verif
open Xml Spec

/-! ## Texts -/

/-- **C62 (texts).** `SetValue` throws if and only if the node has a child element. Otherwise `TryGetValue` returns the text that was set
(if the first child is not a CDATA section), name and attributes are what they were and the node has no child element. -/
theorem C62_value (nm : Str) (as : List (Str × Str)) (cs : List Node) (v : Str) :
    ((∃ c ∈ cs, c.isElement = true) → setValue v (.element nm as cs) = .error ()) ∧
    ((∀ c ∈ cs, c.isElement = false) → ∃ cs', setValue v (.element nm as cs) = .ok (.element nm as cs') ∧ (∀ c ∈ cs', c.isElement = false) ∧
      ((∀ x, cs.head? ≠ some (.text true x)) → tryGetValue (.element nm as cs') = some v)) := by
  constructor
  · intro h
    rw [setValue, if_pos]
    exact List.any_eq_true.mpr h
  · intro h
    refine ⟨setText v cs, ?_, setText_noElement h, fun hc => tryGetValue_setText v hc h⟩
    rw [setValue, if_neg]
    · rfl
    · intro h'
      obtain ⟨c, hc, hce⟩ := List.any_eq_true.mp h'
      rw [h c hc] at hce
      cases hce

/-- **C62 (violation: CDATA).** If the first child is a CDATA section, `SetValue` succeeds, but `TryGetValue` finds no value
afterwards. -/
theorem C62_cdata (nm : Str) (as : List (Str × Str)) (x : Str) (cs : List Node) (v : Str) (h : ∀ c ∈ cs, c.isElement = false) :
    ∃ n', setValue v (.element nm as (.text true x :: cs)) = .ok n' ∧ tryGetValue n' = none := by
  refine ⟨.element nm as (setText v (.text true x :: cs)), ?_, rfl⟩
  rw [setValue, if_neg]
  · rfl
  · intro h'
    obtain ⟨c, hc, hce⟩ := List.any_eq_true.mp h'
    dsimp only [Node.children] at hc
    rw [List.mem_cons] at hc
    rcases hc with rfl | hc
    · cases hce
    · rw [h c hc] at hce; cases hce

/-! ## Numbers -/

/-- **C62 (numbers are read back).** What was set with `SetValueI32`, `SetValueI64`, `SetValueUI32`, `SetValueUI64` is returned by the
function for the same type. -/
theorem C62_number (nm : Str) (as : List (Str × Str)) (cs : List Node) (h : ∀ c ∈ cs, c.isElement = false) (hc : ∀ x, cs.head? ≠ some (.text true x)) (v : Int) :
    ∃ n', setInt v (.element nm as cs) = .ok n' ∧
      (-2147483648 ≤ v ∧ v ≤ 2147483647 → tryGetInt32 n' = .value v) ∧
      (-9223372036854775808 ≤ v ∧ v ≤ 9223372036854775807 → tryGetInt64 n' = .value v) ∧
      (0 ≤ v ∧ v ≤ 4294967295 → tryGetUInt32 n' = .value v.toNat) ∧
      (0 ≤ v ∧ v ≤ 18446744073709551615 → tryGetUInt64 n' = .value v.toNat) := by
  obtain ⟨cs', e, _, hv⟩ := (C62_value nm as cs (Text.printInt v)).2 h
  refine ⟨_, e, ?_, ?_, ?_, ?_⟩
  · intro hr
    exact readSigned_value.mpr ⟨_, hv hc, printInt_text v, hr⟩
  · intro hr
    exact readSigned_value.mpr ⟨_, hv hc, printInt_text v, hr⟩
  · intro hr
    exact readUnsigned_value.mpr ⟨_, v, hv hc, printInt_text v, by omega, by omega, by rw [wrapped, if_neg (by omega)]; omega, by omega⟩
  · intro hr
    exact readUnsigned_value.mpr ⟨_, v, hv hc, printInt_text v, by omega, by omega, by rw [wrapped, if_neg (by omega)]; omega, by omega⟩

/-- **C62 (signed numbers).** `TryGetValueAsInt32` and `TryGetValueAsInt64` return `x` if and only if the value of the node is a decimal
number, its value is `x`, and `x` is in the range of the type. -/
theorem C62_signed (n : Node) (x : Int) :
    (tryGetInt32 n = .value x ↔ ∃ t, tryGetValue n = some t ∧ IntText t x ∧ -2147483648 ≤ x ∧ x ≤ 2147483647) ∧
    (tryGetInt64 n = .value x ↔ ∃ t, tryGetValue n = some t ∧ IntText t x ∧ -9223372036854775808 ≤ x ∧ x ≤ 9223372036854775807) :=
  ⟨readSigned_value, readSigned_value⟩

/-- **C62 (unsigned numbers, partial).** `TryGetValueAsUInt32` and `TryGetValueAsUInt64` return `x` if and only if the value of the node is
a decimal number between −2^64 and 2^64 that is congruent to `x` modulo 2^64, and `x` is in the range of the type. What is missing:
negative numbers should not be accepted. -/
theorem C62_unsigned_partial (n : Node) (x : Nat) :
    (tryGetUInt32 n = .value x ↔ ∃ t y, tryGetValue n = some t ∧ IntText t y ∧ -(2 ^ 64) < y ∧ y < 2 ^ 64 ∧
      (x : Int) = (if y < 0 then y + 2 ^ 64 else y) ∧ x ≤ 4294967295) ∧
    (tryGetUInt64 n = .value x ↔ ∃ t y, tryGetValue n = some t ∧ IntText t y ∧ -(2 ^ 64) < y ∧ y < 2 ^ 64 ∧
      (x : Int) = (if y < 0 then y + 2 ^ 64 else y) ∧ x ≤ 18446744073709551615) :=
  ⟨readUnsigned_value, readUnsigned_value⟩

/-- **C62 (violation: negative numbers as unsigned ones).** `TryGetValueAsUInt64` accepts every negative number above −2^64 and returns
another number. -/
theorem C62_unsigned_negative (n : Node) (t : Str) (y : Int) (hv : tryGetValue n = some t) (ht : IntText t y) (h1 : -(2 ^ 64) < y) (h2 : y < 0) :
    tryGetUInt64 n = .value (y + 2 ^ 64).toNat :=
  readUnsigned_value.mpr ⟨t, y, hv, ht, h1, by omega, by rw [wrapped, if_pos h2]; omega, by omega⟩

/-- **C62 (violation: white space after the number).** The functions do not return exactly if the value of the node is a number in
the range of the type followed by white space (and anything): the loop that is to skip the white space never advances. In
particular a number followed by a line break makes the caller hang. -/
theorem C62_hangs (n : Node) :
    (tryGetInt32 n = .hangs ↔ ∃ t x c r, tryGetValue n = some (t ++ c :: r) ∧ IntText t x ∧ -2147483648 ≤ x ∧ x ≤ 2147483647 ∧
      c ∈ [' ', '\t', '\n', '\x0b', '\x0c', '\r']) ∧
    (tryGetInt64 n = .hangs ↔ ∃ t x c r, tryGetValue n = some (t ++ c :: r) ∧ IntText t x ∧ -9223372036854775808 ≤ x ∧ x ≤ 9223372036854775807 ∧
      c ∈ [' ', '\t', '\n', '\x0b', '\x0c', '\r']) ∧
    (tryGetUInt32 n = .hangs ↔ ∃ t x c r, tryGetValue n = some (t ++ c :: r) ∧ IntText t x ∧ -(2 ^ 64) < x ∧ x < 2 ^ 64 ∧
      (if x < 0 then x + 2 ^ 64 else x) ≤ (4294967295 : Nat) ∧ c ∈ [' ', '\t', '\n', '\x0b', '\x0c', '\r']) ∧
    (tryGetUInt64 n = .hangs ↔ ∃ t x c r, tryGetValue n = some (t ++ c :: r) ∧ IntText t x ∧ -(2 ^ 64) < x ∧ x < 2 ^ 64 ∧
      (if x < 0 then x + 2 ^ 64 else x) ≤ (18446744073709551615 : Nat) ∧ c ∈ [' ', '\t', '\n', '\x0b', '\x0c', '\r']) :=
  ⟨readSigned_hangs, readSigned_hangs, readUnsigned_hangs, readUnsigned_hangs⟩

/-! ## Truth values -/

/-- **C62 (truth values).** `TryGetValueAsBool` returns `b` if and only if the value of the node is, apart from blanks and tabs around
it and from capital letters, one of the words for `b`; it always returns. -/
theorem C62_bool (n : Node) (b : Bool) :
    (tryGetBool n = .value b ↔ ∃ v t w, tryGetValue n = some v ∧ Padded t v ∧ w ∈ boolWords b ∧ CaseWord t w) ∧ tryGetBool n ≠ .hangs := by
  have words : ∀ b, ∀ w ∈ boolWords b, ∀ l ∈ w, ¬ (65 ≤ l.toNat ∧ l.toNat ≤ 90) := by decide
  have key : ∀ v : Str, ∀ b : Bool, (∃ t w, Padded t v ∧ w ∈ boolWords b ∧ CaseWord t w) ↔ (boolWords b).any (icasecmp (Text.trim v)) = true := by
    intro v b
    rw [List.any_eq_true]
    constructor
    · rintro ⟨t, w, hp, hw, hc⟩
      exact ⟨w, hw, by rw [Text.trim_unique hp]; exact (icasecmp_iff (words b w hw)).mpr hc⟩
    · rintro ⟨w, hw, hc⟩
      exact ⟨_, w, Text.trim_padded v, hw, (icasecmp_iff (words b w hw)).mp hc⟩
  have excl : ∀ v : Str, (boolWords true).any (icasecmp v) = true → (boolWords false).any (icasecmp v) = true → False := by
    intro v h1 h2
    rw [List.any_eq_true] at h1 h2
    obtain ⟨w1, m1, e1⟩ := h1
    obtain ⟨w2, m2, e2⟩ := h2
    rw [icasecmp, beq_iff_eq] at e1 e2
    rw [e1] at e2
    have : ∀ w1 ∈ boolWords true, ∀ w2 ∈ boolWords false, w1.map upper ≠ w2.map upper := by decide
    exact this w1 m1 w2 m2 e2
  have shape : tryGetBool n = match tryGetValue n with
      | none => .fails
      | some v => if (boolWords true).any (icasecmp (Text.trim v)) = true then .value true
        else if (boolWords false).any (icasecmp (Text.trim v)) = true then .value false else .fails := by
    rw [tryGetBool]
    cases tryGetValue n with
    | none => rfl
    | some v => simp only [boolWords, List.any_cons, List.any_nil, Bool.or_false, Bool.or_assoc]
  rw [shape]
  cases tryGetValue n with
  | none => simp
  | some v =>
    dsimp only
    have k := key v b
    constructor
    · constructor
      · intro h
        have : (boolWords b).any (icasecmp (Text.trim v)) = true := by
          split at h
          · injection h with h; subst h; assumption
          · split at h
            · injection h with h; subst h; assumption
            · cases h
        obtain ⟨t, w, h1, h2, h3⟩ := k.mpr this
        exact ⟨v, t, w, rfl, h1, h2, h3⟩
      · rintro ⟨v', t, w, e, h1, h2, h3⟩
        injection e with e
        subst e
        have := k.mp ⟨t, w, h1, h2, h3⟩
        cases b with
        | true => rw [if_pos this]
        | false =>
          rw [if_neg (fun h => excl _ h this), if_pos this]
    · split
      · simp
      · split <;> simp

/-- **C62 (truth values are read back).** -/
theorem C62_bool_roundtrip (nm : Str) (as : List (Str × Str)) (cs : List Node) (h : ∀ c ∈ cs, c.isElement = false) (hc : ∀ x, cs.head? ≠ some (.text true x)) (b : Bool) :
    ∃ n', setBool b (.element nm as cs) = .ok n' ∧ tryGetBool n' = .value b := by
  obtain ⟨cs', e, _, hv⟩ := (C62_value nm as cs (if b then "true".toList else "false".toList)).2 h
  refine ⟨_, e, ?_⟩
  rw [tryGetBool, hv hc]
  cases b <;> decide

/-! ## Attributes and children -/

/-- **C62 (attributes).** After `SetAttribute` the attribute has the value, the other attributes have the values they had (or none),
the names come in the order they had, a new one last; name and children of the node are unchanged. -/
theorem C62_attribute (nm : Str) (as : List (Str × Str)) (cs : List Node) (k v : Str) :
    ∃ as', setAttribute k v (.element nm as cs) = .element nm as' cs ∧
      tryGetAttribute (.element nm as' cs) k = some v ∧
      (∀ k', k' ≠ k → tryGetAttribute (.element nm as' cs) k' = tryGetAttribute (.element nm as cs) k') ∧
      as'.map (·.1) = if k ∈ as.map (·.1) then as.map (·.1) else as.map (·.1) ++ [k] := by
  refine ⟨setAttr k v as, rfl, ?_, ?_, setAttr_names k v as⟩
  · rw [tryGetAttribute, attrOf_eq]; exact (attrValue_setAttr k v as k).trans (if_pos rfl)
  · intro k' hk
    rw [tryGetAttribute, tryGetAttribute, attrOf_eq, attrOf_eq]
    exact (attrValue_setAttr k v as k').trans (if_neg hk)

/-- **C62 (removing an attribute).** `RemoveAttribute` says whether the attribute was there; the other attributes have the values they
had; and the attribute is gone, if the names of the attributes are different (as XML requires). -/
theorem C62_remove_attribute (nm : Str) (as : List (Str × Str)) (cs : List Node) (k : Str) :
    ∃ as' b, removeAttribute k (.element nm as cs) = (.element nm as' cs, b) ∧
      (b = true ↔ tryGetAttribute (.element nm as cs) k ≠ none) ∧
      (∀ k', k' ≠ k → tryGetAttribute (.element nm as' cs) k' = tryGetAttribute (.element nm as cs) k') ∧
      ((as.map (·.1)).Nodup → tryGetAttribute (.element nm as' cs) k = none) := by
  refine ⟨as.eraseP (fun a => a.1 == k), as.any (fun a => a.1 == k), rfl, ?_, ?_, ?_⟩
  · rw [tryGetAttribute, attrOf_eq, ne_eq, Node.attrs, attrValue_none]
    simp
  · intro k' hk
    rw [tryGetAttribute, tryGetAttribute, attrOf_eq, attrOf_eq]
    exact attrValue_erase k as k' hk
  · intro hn
    rw [tryGetAttribute, attrOf_eq]
    exact attrValue_erase_self hn

/-- **C62 (removing a child).** `RemoveChild` removes the first child element with the name and nothing else; it says whether there
was one. -/
theorem C62_remove_child (nm : Str) (as : List (Str × Str)) (cs : List Node) (name : Str) :
    (removeChild name (.element nm as cs) = (.element nm as cs, false) ∧ ∀ c ∈ cs, ¬ (c.isElement = true ∧ c.name = name)) ∨
    ∃ a c b, cs = a ++ c :: b ∧ removeChild name (.element nm as cs) = (.element nm as (a ++ b), true) ∧
      (∀ x ∈ a, ¬ (x.isElement = true ∧ x.name = name)) ∧ c.isElement = true ∧ c.name = name := by
  have named : ∀ x : Node, isNamed name x = true ↔ x.isElement = true ∧ x.name = name := by
    intro x
    rw [isNamed, Bool.and_eq_true, beq_iff_eq]
  rcases eraseP_split (isNamed name) cs with ⟨h1, h2⟩ | ⟨a, c, b, e, h1, h2, h3, h4⟩
  · refine .inl ⟨by rw [removeChild, h1, h2], ?_⟩
    intro c hc hx
    rw [List.any_eq_false] at h1
    exact h1 c hc ((named c).mpr hx)
  · refine .inr ⟨a, c, b, e, by rw [removeChild, h3, h4], ?_, ((named c).mp h2).1, ((named c).mp h2).2⟩
    intro x hx hxn
    have := h1 x hx
    rw [(named x).mpr hxn] at this
    cases this

/-! ## The rest of the document -/

/-- **C62 (the rest of the document).** What one of these functions does to an element of the document leaves every node that is not
that element or below it where and as it was; and a call that throws leaves the document alone. -/
theorem C62_local (f : Node → Except Unit Node) (doc n : Node) (h : List Nat) (hn : doc.at h = some n) (he : n.isElement = true)
    (hf : ∀ n', f n = .ok n' → n'.isElement = true) :
    (∀ n', f n = .ok n' → ∃ doc', onNode f doc h = .ok doc' ∧ doc'.at h = some n' ∧ KeepsOutside h doc doc') ∧
    (f n = .error () → onNode f doc h = .error ()) := by
  constructor
  · intro n' hn'
    refine ⟨doc.update (fun _ => n') h, ?_, ?_, keepsOutside_update h doc n n' hn he (hf n' hn')⟩
    · rw [onNode, hn]; dsimp only; rw [hn']
    · have := at_update (fun _ => n') h doc n hn []
      rw [List.append_nil] at this
      rw [this]; rfl
  · intro he'
    rw [onNode, hn]; dsimp only; rw [he']

/-! ## The hypotheses can be met -/

/-- A node with a text. -/
def textNode (s : String) : Node := .element "SizeX".toList [("Type".toList, "Int32".toList)] [.text false s.toList]

example : tryGetInt32 (textNode "  -12") = .value (-12) := by decide
example : tryGetInt32 (textNode "2147483648") = .fails := by decide
example : tryGetInt32 (textNode "12 ") = .hangs := by decide
example : tryGetUInt64 (textNode "-1") = .value 18446744073709551615 := by decide
example : tryGetUInt32 (textNode "-1") = .fails := by decide
example : tryGetBool (textNode " Yes\t") = .value true := by decide
example : IntText "  -12".toList (-12) :=
  ⟨"  ".toList, "-".toList, "12".toList, by decide, by unfold White; decide, by decide, by unfold Digits IsDigit; decide, by decide⟩
example := C62_number "SizeX".toList [] [.text false "old".toList, .text true "x".toList] (by simp [Node.isElement]) (by simp) (-5)
example := C62_cdata "SizeX".toList [] "x".toList [] "new".toList (by simp)
example := C62_unsigned_negative (textNode "-5") "-5".toList (-5) rfl
  ⟨[], "-".toList, "5".toList, by decide, by unfold White; decide, by decide, by unfold Digits IsDigit; decide, by decide⟩ (by decide) (by decide)
example := C62_local (setValue "new".toList) (.element [] [] [textNode "1", textNode "2"]) (textNode "2") [1] rfl rfl
  (by intro n' h; have : setValue "new".toList (textNode "2") = .ok (textNode "new") := rfl
      rw [this] at h; injection h with h; subst h; rfl)

end Verif
