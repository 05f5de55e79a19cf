import Verif.Lemmas.IO

/-!
# `dict` lemmas: `set`, `filter`
-/

namespace Verif.NS

variable {V : Type}

theorem get?_append (a b : NS V) (k : String) : get? (a ++ b) k = (get? a k).or (get? b k) := by
  induction a with
  | nil => rfl
  | cons p a ih =>
    rw [List.cons_append, get?_cons, get?_cons]
    split
    · rfl
    · exact ih

theorem get?_isSome {ns : NS V} {k : String} : (ns.get? k).isSome ↔ k ∈ ns.keys := by
  induction ns with
  | nil => simp [get?, keys]
  | cons p ns ih =>
    rw [get?_cons]
    by_cases h : p.1 = k
    · simp [h, keys]
    · simp only [h, if_false, ih, keys, List.map_cons, List.mem_cons]
      constructor
      · exact .inr
      · rintro (e | e)
        · exact absurd e.symm h
        · exact e

theorem get?_set (ns : NS V) (k : String) (v : V) (k' : String) :
    (ns.set k v).get? k' = if k' = k then some v else ns.get? k' := by
  unfold set
  split
  · next h =>

    induction ns with
    | nil => simp [keys] at h
    | cons p ns ih =>
      rw [List.map_cons, get?_cons, get?_cons]
      by_cases hp : p.1 = k
      · simp only [hp, if_true]
        by_cases hk : k' = k
        · simp [hk]
        · simp only [Ne.symm hk, hk, if_false]
          by_cases hm : k ∈ keys ns
          · rw [ih hm, if_neg hk]
          · congr 1
            conv_rhs => rw [← List.map_id ns]
            refine List.map_congr_left fun q hq => ?_
            rw [if_neg]; · rfl
            intro e; exact hm (List.mem_map.mpr ⟨q, hq, e⟩)
      · simp only [hp, if_false]
        have hm : k ∈ keys ns := by
          simp only [keys, List.map_cons, List.mem_cons] at h
          rcases h with h | h
          · exact absurd h.symm hp
          · exact h
        rw [ih hm]
        by_cases hk : k' = k
        · subst hk; simp [hp]
        · simp [hk]
  · next h =>
    rw [get?_append, get?_cons]
    by_cases hk : k' = k
    · subst hk
      rw [get?_eq_none_of_not_mem h]; simp
    · simp [Ne.symm hk, hk, get?_nil]

theorem keys_set (ns : NS V) (k : String) (v : V) :
    (ns.set k v).keys = if k ∈ ns.keys then ns.keys else ns.keys ++ [k] := by
  unfold set
  split
  · unfold keys
    rw [List.map_map]
    refine List.map_congr_left fun p _ => ?_
    simp only [Function.comp]
    split
    · next h => exact h.symm
    · rfl
  · simp [keys]

theorem nodup_set {ns : NS V} (h : ns.keys.Nodup) (k : String) (v : V) : (ns.set k v).keys.Nodup := by
  rw [keys_set]
  split
  · exact h
  · next hk =>
    rw [List.nodup_append]
    refine ⟨h, by simp, ?_⟩
    intro a ha b hb e
    rw [List.mem_singleton] at hb
    subst hb; subst e
    exact hk ha

theorem mem_keys_set {ns : NS V} {k k' : String} {v : V} : k' ∈ (ns.set k v).keys ↔ k' = k ∨ k' ∈ ns.keys := by
  rw [← get?_isSome, ← get?_isSome, get?_set]
  split <;> simp_all

theorem get?_filter (ns : NS V) (P : String → Bool) (k : String) :
    get? (ns.filter fun p => P p.1) k = if P k then ns.get? k else none := by
  induction ns with
  | nil => simp [get?_nil]
  | cons p ns ih =>
    rw [List.filter_cons]
    split
    · next h =>
      rw [get?_cons, get?_cons, ih]
      by_cases hk : p.1 = k
      · subst hk; simp [h]
      · simp [hk]
    · next h =>
      rw [get?_cons, ih]
      by_cases hk : p.1 = k
      · subst hk; simp [h]
      · simp [hk]

theorem nodup_filter {ns : NS V} (h : ns.keys.Nodup) (P : String × V → Bool) : (keys (ns.filter P)).Nodup := by
  unfold keys at *
  exact h.sublist (List.filter_sublist.map _)

theorem get?_of_mem {ns : NS V} (h : ns.keys.Nodup) {p : String × V} (hp : p ∈ ns) : ns.get? p.1 = some p.2 := by
  induction ns with
  | nil => cases hp
  | cons q ns ih =>
    simp only [keys, List.map_cons, List.nodup_cons] at h
    rw [get?_cons]
    rcases List.mem_cons.mp hp with rfl | h'
    · rw [if_pos rfl]
    · rw [if_neg, ih h.2 h']
      intro e; exact h.1 (e ▸ List.mem_map.mpr ⟨p, h', rfl⟩)

theorem getItem_of_get? {ns : NS V} {k : String} {v : V} (h : ns.get? k = some v) : ns.getItem k = .ok v := by
  unfold getItem; rw [h]

end Verif.NS
