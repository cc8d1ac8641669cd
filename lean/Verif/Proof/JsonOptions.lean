import Verif.Spec.JsonOptions
import Verif.Proof.Stats

namespace Verif.JsonOpt
open Verif.Czi Verif.CApi Verif.Spec

theorem member_some {m : List (List Char × Json)} {key : String} {v : Json} : member m key = some v ↔ HasValue m key v := by
  unfold member HasValue
  constructor
  · intro h
    obtain ⟨e, he, rfl⟩ := Option.map_eq_some_iff.1 h
    rw [List.find?_eq_some_iff_append] at he
    obtain ⟨hk, pre, post, rfl, hpre⟩ := he
    have hk' : e.1 = key.toList := by simpa using hk
    refine ⟨pre, post, by rw [← hk'], ?_⟩
    intro x hx
    have := hpre x hx
    simpa using this
  · rintro ⟨pre, post, rfl, hpre⟩
    have : ((pre ++ (key.toList, v) :: post).find? fun e => e.1 = key.toList) = some (key.toList, v) := by
      rw [List.find?_eq_some_iff_append]
      exact ⟨by simp, pre, post, rfl, fun x hx => by simpa using hpre x hx⟩
    rw [this]
    rfl

theorem object_some {parse : Parser} {text : Option (List Char)} {m : List (List Char × Json)} : object parse text = some m ↔ SaysObject parse text m := by
  unfold object SaysObject
  cases text with
  | none => simp
  | some t =>
    dsimp only
    constructor
    · intro h
      split at h
      · rename_i m' hm
        cases h
        exact ⟨t, rfl, hm⟩
      · cases h
    · rintro ⟨t', ht, hp⟩
      cases ht
      rw [hp]

theorem asBool_some {o : Option Json} {b : Bool} : asBool o = some b ↔ o = some (.bool b) := by
  unfold asBool
  split
  · simp
  · rename_i h
    constructor
    · intro h'; cases h'
    · intro h'; exact absurd h' (h b)

theorem asUint_some {o : Option Json} {n : Nat} : asUint o = some n ↔ o = some (.int n) ∧ n < 4294967296 := by
  unfold asUint
  split
  · rename_i k
    constructor
    · intro h
      split at h
      · rename_i hr
        cases h
        refine ⟨by rw [Int.toNat_of_nonneg hr.1], by omega⟩
      · cases h
    · rintro ⟨h, hn⟩
      cases h
      rw [if_pos (by omega), Int.toNat_natCast]
  · rename_i h
    constructor
    · intro h'; cases h'
    · intro h'; exact absurd h'.1 (h n)

theorem asInt_some {o : Option Json} {n : Int} : asInt o = some n ↔ o = some (.int n) ∧ Is32 n := by
  unfold asInt Is32
  split
  · rename_i k
    constructor
    · intro h
      split at h
      · rename_i hr
        cases h
        exact ⟨rfl, by omega, by omega⟩
      · cases h
    · rintro ⟨h, hn⟩
      cases h
      rw [if_pos (by omega)]
  · rename_i h
    constructor
    · intro h'; cases h'
    · intro h'; exact absurd h'.1 (h n)

theorem asStr_some {o : Option Json} {t : List Char} : asStr o = some t ↔ ∃ s, o = some (.str s) ∧ t = cstr s := by
  unfold asStr
  split
  · rename_i s
    constructor
    · intro h; cases h; exact ⟨s, rfl, rfl⟩
    · rintro ⟨s', h, rfl⟩; cases h; rfl
  · rename_i h
    constructor
    · intro h'; cases h'
    · rintro ⟨s', h', _⟩; exact absurd h' (h s')

theorem cstr_id {s : List Char} (h : NoZero s) : cstr s = s := by
  unfold cstr
  induction s with
  | nil => rfl
  | cons c s ih =>
    have hc := h c (by simp)
    rw [List.takeWhile_cons, if_pos (by simpa using hc), ih fun d hd => h d (by simp [hd])]

/-- The information with every option that is there. -/
def fromOptions (m : List (List Char × Json)) (fresh : Guid) : WriterInfo where
  guid := match optGuid m with | some g => if g = nullGuid then fresh else g | none => fresh
  dimBounds := none
  mBounds := (optBounds m).bind fun b => if b.2 < b.1 then none else some b
  reservedMetadata := asUint (member m "reserved_size_metadata_segment")
  reservedSubDir := asUint (member m "reserved_size_subblock_directory")
  reservedAttDir := asUint (member m "reserved_size_attachments_directory")

theorem writerInfo_object {parse : Parser} {text : Option (List Char)} {m : List (List Char × Json)} (h : object parse text = some m) (fresh : Guid) :
    writerInfo parse text fresh = fromOptions m fresh := by
  unfold writerInfo tryWriterInfo fromOptions
  rw [h]
  dsimp only [Option.bind]
  generalize optGuid m = a
  generalize optBounds m = b
  generalize asUint (member m "reserved_size_metadata_segment") = c
  generalize asUint (member m "reserved_size_subblock_directory") = d
  generalize asUint (member m "reserved_size_attachments_directory") = e
  cases a <;> cases b <;> cases c <;> cases d <;> cases e <;> dsimp only [apply, setBounds, blankInfo] <;>
    simp only [if_true, Bool.false_eq_true, if_false] <;> (try split) <;> (try split) <;> simp_all [blankInfo]

theorem writerInfo_none {parse : Parser} {text : Option (List Char)} (h : object parse text = none) (fresh : Guid) :
    writerInfo parse text fresh = { blankInfo with guid := fresh } := by
  unfold writerInfo tryWriterInfo
  rw [h]
  rfl

theorem propValue_some {t : PropType} {j : Json} {v : PropValue} : propValue t j = some v ↔ PropIs t j v := by
  cases t with
  | string =>
    unfold propValue
    rw [Option.map_eq_some_iff]
    constructor
    · rintro ⟨a, ha, rfl⟩
      obtain ⟨s, hs, rfl⟩ := asStr_some.1 ha
      cases hs
      rfl
    · intro h
      cases j <;> cases v <;> simp only [PropIs] at h
      exact ⟨_, asStr_some.2 ⟨_, rfl, rfl⟩, by rw [h]⟩
  | boolean =>
    unfold propValue
    rw [Option.map_eq_some_iff]
    constructor
    · rintro ⟨a, ha, rfl⟩
      have := asBool_some.1 ha
      cases this
      rfl
    · intro h
      cases j <;> cases v <;> simp only [PropIs] at h
      exact ⟨_, asBool_some.2 rfl, by rw [h]⟩
  | int32 =>
    unfold propValue
    rw [Option.map_eq_some_iff]
    constructor
    · rintro ⟨a, ha, rfl⟩
      obtain ⟨h1, h2⟩ := asInt_some.1 ha
      cases h1
      exact ⟨rfl, h2⟩
    · intro h
      cases j <;> cases v <;> simp only [PropIs] at h
      exact ⟨_, asInt_some.2 ⟨rfl, h.2⟩, by rw [h.1]⟩

theorem mapFind_insertOld {α : Type} (m : List (Int × α)) (hs : KeysSorted m) (k : Int) (v : α) (j : Int) :
    mapFind (Verif.mapInsert m k v) j = if j = k then some ((mapFind m j).getD v) else mapFind m j := by
  cases hk : mapFind m k with
  | none =>
    rw [mapFind_insert m hs k v hk]
    by_cases h : j = k
    · subst h; rw [if_pos rfl, if_pos rfl, hk]; rfl
    · rw [if_neg h, if_neg h]
  | some w =>
    have : Verif.mapInsert m k v = m := by
      induction m with
      | nil => cases hk
      | cons q r ih =>
        obtain ⟨k', v'⟩ := q
        obtain ⟨s1, s2⟩ := List.pairwise_cons.mp hs
        rw [mapFind_cons] at hk
        rw [Verif.mapInsert]
        by_cases h : k' = k
        · subst h
          rw [if_neg (by omega), if_pos rfl]
        · rw [if_neg h] at hk
          have hm := mem_of_mapFind hk
          have := s1 _ hm
          dsimp only at this
          rw [if_neg (by omega), if_neg (by omega), ih s2 hk]
    rw [this]
    by_cases h : j = k
    · subst h; rw [if_pos rfl, hk]; rfl
    · rw [if_neg h]

/-- The names and the numbers of the properties in the table are different from each other. -/
structure GoodTable (table : List PropInfo) : Prop where
  names : ∀ p ∈ table, ∀ q ∈ table, p.name.toList = q.name.toList → p = q
  ids : ∀ p ∈ table, ∀ q ∈ table, p.id = q.id → p = q

theorem find_prop {table : List PropInfo} (ht : GoodTable table) {name : List Char} {p : PropInfo} :
    (table.find? fun p => cstr name = p.name.toList) = some p ↔ p ∈ table ∧ cstr name = p.name.toList := by
  constructor
  · intro h
    exact ⟨List.mem_of_find?_eq_some h, by simpa using List.find?_some h⟩
  · rintro ⟨hp, hn⟩
    cases hf : table.find? fun p => cstr name = p.name.toList with
    | none =>
      have := List.find?_eq_none.1 hf p hp
      simp [hn] at this
    | some q =>
      have h1 := List.mem_of_find?_eq_some hf
      have h2 : cstr name = q.name.toList := by simpa using List.find?_some hf
      rw [ht.names q h1 p hp (by rw [← h2, hn])]

theorem first_cons {name : List Char} {j : Json} {m : List (List Char × Json)} {p : PropInfo} {v : PropValue} :
    FirstProp ((name, j) :: m) p v ↔ if cstr name = p.name.toList then PropIs p.type j v else FirstProp m p v := by
  constructor
  · rintro ⟨pre, n', j', post, h1, h2, h3, h4⟩
    cases pre with
    | nil =>
      cases h1
      rw [if_pos h2]
      exact h4
    | cons e pre =>
      cases h1
      rw [if_neg (h3 (name, j) (by simp))]
      exact ⟨pre, n', j', post, rfl, h2, fun x hx => h3 x (by simp [hx]), h4⟩
  · intro h
    by_cases hn : cstr name = p.name.toList
    · rw [if_pos hn] at h
      exact ⟨[], name, j, m, rfl, hn, by simp, h⟩
    · rw [if_neg hn] at h
      obtain ⟨pre, n', j', post, rfl, h2, h3, h4⟩ := h
      refine ⟨(name, j) :: pre, n', j', post, rfl, h2, ?_, h4⟩
      intro x hx
      rcases List.mem_cons.1 hx with rfl | hx
      · exact hn
      · exact h3 x hx

theorem bag_lookup {table : List PropInfo} (ht : GoodTable table) : ∀ (m : List (List Char × Json)) (acc bag : List (Int × PropValue)), KeysSorted acc →
    bagLoop table m acc = some bag → ∀ p ∈ table, ∀ v, mapFind bag p.id = some v ↔ mapFind acc p.id = some v ∨ (mapFind acc p.id = none ∧ FirstProp m p v)
  | [], acc, bag, hs, h, p, hp, v => by
    cases h
    constructor
    · exact Or.inl
    · rintro (h | ⟨_, pre, n, j, post, h, _⟩)
      · exact h
      · simp at h
  | (name, j) :: m, acc, bag, hs, h, p, hp, v => by
    rw [bagLoop] at h
    cases hf : table.find? fun p => cstr name = p.name.toList with
    | none => rw [hf] at h; cases h
    | some q =>
      rw [hf] at h
      dsimp only at h
      obtain ⟨hq, hn⟩ := (find_prop ht).1 hf
      cases hv : propValue q.type j with
      | none => rw [hv] at h; cases h
      | some w =>
        rw [hv] at h
        dsimp only at h
        rw [bag_lookup ht m _ bag (mapInsert_sorted acc hs _ _) h p hp v, mapFind_insertOld acc hs, first_cons]
        by_cases he : p.id = q.id
        · have := ht.ids p hp q hq he
          subst this
          rw [if_pos rfl, if_pos hn]
          cases ha : mapFind acc p.id with
          | some u => simp
          | none =>
            simp only [Option.getD_none, Option.some.injEq, reduceCtorEq, false_and, or_false, true_and, false_or]
            rw [← propValue_some, hv]
            simp
        · rw [if_neg he]
          have hn' : cstr name ≠ p.name.toList := by
            intro hc
            exact he (by rw [ht.names p hp q hq (by rw [← hc, hn])])
          rw [if_neg hn']

theorem bag_ids {table : List PropInfo} (ht : GoodTable table) : ∀ (m : List (List Char × Json)) (acc bag : List (Int × PropValue)),
    bagLoop table m acc = some bag → (∀ e ∈ acc, ∃ p ∈ table, p.id = e.1) → ∀ e ∈ bag, ∃ p ∈ table, p.id = e.1
  | [], acc, bag, h, ha => by cases h; exact ha
  | (name, j) :: m, acc, bag, h, ha => by
    rw [bagLoop] at h
    cases hf : table.find? fun p => cstr name = p.name.toList with
    | none => rw [hf] at h; cases h
    | some q =>
      rw [hf] at h
      dsimp only at h
      obtain ⟨hq, hn⟩ := (find_prop ht).1 hf
      cases hv : propValue q.type j with
      | none => rw [hv] at h; cases h
      | some w =>
        rw [hv] at h
        dsimp only at h
        refine bag_ids ht m _ bag h ?_
        intro e he
        rcases mapInsert_keys acc q.id w e he with he | he
        · exact ⟨q, hq, he.symm⟩
        · exact ha e he

theorem bag_iff {table : List PropInfo} (ht : GoodTable table) : ∀ (m : List (List Char × Json)) (acc : List (Int × PropValue)),
    (∃ bag, bagLoop table m acc = some bag) ↔ ∀ e ∈ m, ∃ p ∈ table, ∃ v, cstr e.1 = p.name.toList ∧ PropIs p.type e.2 v
  | [], acc => by simp [bagLoop]
  | (name, j) :: m, acc => by
    rw [bagLoop]
    cases hf : table.find? fun p => cstr name = p.name.toList with
    | none =>
      constructor
      · rintro ⟨bag, h⟩; cases h
      · intro h
        obtain ⟨p, hp, v, hn, _⟩ := h (name, j) (by simp)
        rw [(find_prop ht).2 ⟨hp, hn⟩] at hf
        cases hf
    | some q =>
      dsimp only
      obtain ⟨hq, hn⟩ := (find_prop ht).1 hf
      cases hv : propValue q.type j with
      | none =>
        constructor
        · rintro ⟨bag, h⟩; cases h
        · intro h
          obtain ⟨p, hp, v, hn', hv'⟩ := h (name, j) (by simp)
          dsimp only at hn' hv'
          have := ht.names p hp q hq (by rw [← hn', hn])
          subst this
          rw [propValue_some.2 hv'] at hv
          cases hv
      | some w =>
        dsimp only
        rw [bag_iff ht m]
        constructor
        · intro h e he
          rcases List.mem_cons.1 he with rfl | he
          · exact ⟨q, hq, w, hn, propValue_some.1 hv⟩
          · exact h e he
        · intro h e he
          exact h e (by simp [he])

theorem propTable_good : GoodTable propTable := ⟨by decide +kernel, by decide +kernel⟩

end Verif.JsonOpt
