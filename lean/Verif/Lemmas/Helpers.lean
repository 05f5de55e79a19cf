import Verif.Model.Helpers
import Mathlib.Tactic.Linarith
import Mathlib.Tactic.Ring
import Mathlib.Data.List.Basic

/-!
# Lemmas about the table layout of `format_print_dict`
-/

namespace Verif.Helpers

variable {ν γ : Type}

theorem everyNth_getElem? (i : ℕ) (hi : 1 ≤ i) (r : ℕ) : ∀ l : List γ, (everyNth i l)[r]? = l[r * i]? := by
  induction r with
  | zero =>
    intro l
    cases l with
    | nil => simp [everyNth]
    | cons x xs => rw [everyNth, Nat.zero_mul]; simp
  | succ r ih =>
    intro l
    cases l with
    | nil => simp [everyNth]
    | cons x xs =>
      rw [everyNth, List.getElem?_cons_succ, ih, List.getElem?_drop]
      have : (r + 1) * i = (i - 1 + r * i) + 1 := by rw [Nat.succ_mul]; omega
      rw [this, List.getElem?_cons_succ]

theorem columnKeys_getElem? (keys : List Str) (i : ℕ) (hi : 1 ≤ i) (j r : ℕ) :
    (columnKeys keys i j)[r]? = keys[r * i + j]? := by
  unfold columnKeys
  rw [everyNth_getElem? i hi, List.getElem?_drop, Nat.add_comm]

theorem columnKeys_length (keys : List Str) (i : ℕ) (hi : 1 ≤ i) (j r : ℕ) :
    r < (columnKeys keys i j).length ↔ r * i + j < keys.length := by
  rw [← isSome_getElem?_iff, columnKeys_getElem? keys i hi, isSome_getElem?_iff]
where isSome_getElem?_iff {γ : Type} {l : List γ} {r : ℕ} : l[r]?.isSome ↔ r < l.length := by simp

theorem columnKeys_mem (keys : List Str) (i : ℕ) (hi : 1 ≤ i) (j : ℕ) (k : Str) (h : k ∈ columnKeys keys i j) : k ∈ keys := by
  obtain ⟨r, hr⟩ := List.mem_iff_getElem?.1 h
  rw [columnKeys_getElem? keys i hi] at hr
  exact List.mem_iff_getElem?.2 ⟨_, hr⟩

/-- the width of column `j` -/
def width (keys : List Str) (i j : ℕ) : ℕ := ((columnKeys keys i j).map List.length).max?.getD 0 + 1

theorem columnKeys_ne_nil (keys : List Str) (i j : ℕ) (hj : j < i) (hi : i ≤ keys.length) : columnKeys keys i j ≠ [] := by
  have h := (columnKeys_length keys i (by omega) j 0).2 (by omega)
  exact List.ne_nil_of_length_pos (by omega)

theorem maxLen_eq {γ : Type} (l : List (List γ)) (h : l ≠ []) : ∃ m, maxLen l = .ok m ∧ (l.map List.length).max? = some m := by
  unfold maxLen
  cases hm : (l.map List.length).max? with
  | none => rw [List.max?_eq_none_iff] at hm; exact absurd (List.map_eq_nil_iff.1 hm) h
  | some m => exact ⟨m, rfl, rfl⟩

theorem mapM_ok {γ δ : Type} (f : γ → Py δ) (g : γ → δ) (l : List γ) (h : ∀ x ∈ l, f x = .ok (g x)) : l.mapM f = .ok (l.map g) := by
  induction l with
  | nil => rfl
  | cons x l ih =>
    rw [List.mapM_cons, h x List.mem_cons_self, ih fun y hy => h y (List.mem_cons_of_mem _ hy)]
    rfl

theorem columnWidths_eq (keys : List Str) (i : ℕ) (hi : i ≤ keys.length) :
    columnWidths keys i = .ok ((List.range i).map (width keys i)) := by
  unfold columnWidths
  refine mapM_ok _ _ _ fun j hj => ?_
  obtain ⟨m, h1, h2⟩ := maxLen_eq _ (columnKeys_ne_nil keys i j (List.mem_range.1 hj) hi)
  rw [h1]
  unfold width
  rw [h2]
  rfl

theorem le_width (keys : List Str) (i : ℕ) (hi : 1 ≤ i) (j r : ℕ) (k : Str) (h : keys[r * i + j]? = some k) :
    k.length + 1 ≤ width keys i j := by
  rw [← columnKeys_getElem? keys i hi] at h
  have hm : k ∈ columnKeys keys i j := List.mem_iff_getElem?.2 ⟨r, h⟩
  have hl : k.length ∈ (columnKeys keys i j).map List.length := List.mem_map_of_mem hm
  unfold width
  cases hx : ((columnKeys keys i j).map List.length).max? with
  | none => rw [List.max?_eq_none_iff] at hx; rw [hx] at hl; cases hl
  | some m =>
    have := (List.max?_eq_some_iff.1 hx).2 _ hl
    simp only [Option.getD_some]
    omega

theorem width_le (keys : List Str) (i : ℕ) (hi : 1 ≤ i) (j B : ℕ) (h : ∀ k ∈ keys, k.length ≤ B) : width keys i j ≤ B + 1 := by
  unfold width
  cases hx : ((columnKeys keys i j).map List.length).max? with
  | none => simp
  | some m =>
    obtain ⟨k, hk, rfl⟩ := List.mem_map.1 (List.max?_eq_some_iff.1 hx).1
    have := h k (columnKeys_mem keys i hi j k hk)
    simp only [Option.getD_some]
    omega

/-! ### Filling the lines -/

/-- One column. -/
theorem fill_column (cell : Str → Py Str) (g : Str → Str) (ks : List Str) (hc : ∀ k ∈ ks, cell k = .ok (g k)) :
    ∀ (s : ℕ) (lines : List (List Str)), s + ks.length ≤ lines.length →
      ∃ out, (ks.zipIdx s).foldlM (fun lines (ki : Str × ℕ) => do
          let c ← cell ki.1
          addCell lines ki.2 c) lines = (.ok out : Py _) ∧ out.length = lines.length ∧
        ∀ r l, lines[r]? = some l → out[r]? = some (l ++ (if s ≤ r then (ks[r - s]?.map g).toList else [])) := by
  induction ks with
  | nil =>
    intro s lines _
    refine ⟨lines, rfl, rfl, fun r l h => ?_⟩
    rw [h]; simp
  | cons k ks ih =>
    intro s lines hs
    rw [List.length_cons] at hs
    have hs' : s < lines.length := by omega
    obtain ⟨out, h1, h2, h3⟩ := ih (fun k hk => hc k (List.mem_cons_of_mem _ hk)) (s + 1) (lines.modify s (· ++ [g k]))
      (by rw [List.length_modify]; omega)
    refine ⟨out, ?_, by rw [h2, List.length_modify], fun r l h => ?_⟩
    · rw [List.zipIdx_cons, List.foldlM_cons, hc k List.mem_cons_self]
      have : addCell lines s (g k) = .ok (lines.modify s (· ++ [g k])) := by unfold addCell; rw [if_pos hs']
      simp only [bind, Except.bind, this]
      exact h1
    · by_cases hr : r = s
      · subst hr
        have := h3 r (l ++ [g k]) (by rw [List.getElem?_modify, h]; simp)
        rw [this]
        simp
      · have := h3 r l (by rw [List.getElem?_modify, h]; simp [Ne.symm hr])
        rw [this]
        by_cases hlt : s ≤ r
        · obtain ⟨q, rfl⟩ : ∃ q, r = s + 1 + q := ⟨r - s - 1, by omega⟩
          have e1 : s + 1 + q - (s + 1) = q := by omega
          have e2 : s + 1 + q - s = q + 1 := by omega
          rw [if_pos (by omega), if_pos (by omega), e1, e2, List.getElem?_cons_succ]
        · rw [if_neg (by omega), if_neg (by omega)]

/-- All columns. -/
theorem fill_all (cell : ℕ → Str → Py Str) (g : ℕ → Str → Str) (keys : List Str) (i : ℕ) (hi : 1 ≤ i)
    (hc : ∀ j < i, ∀ k ∈ keys, cell j k = .ok (g j k)) (L : ℕ) (hL : ∀ r, r * i < keys.length → r < L) :
    ∀ c ≤ i, ∃ out, (List.range c).foldlM (fun lines j =>
        (columnKeys keys i j).zipIdx.foldlM (fun lines (ki : Str × ℕ) => do
          let x ← cell j ki.1
          addCell lines ki.2 x) lines) (List.replicate L []) = (.ok out : Py _) ∧ out.length = L ∧
        ∀ r < L, out[r]? = some ((List.range c).filterMap fun j => keys[r * i + j]?.map (g j)) := by
  intro c
  induction c with
  | zero =>
    intro _
    refine ⟨List.replicate L [], rfl, by simp, fun r hr => ?_⟩
    rw [List.getElem?_replicate, if_pos hr]
    rfl
  | succ c ih =>
    intro hci
    obtain ⟨out, h1, h2, h3⟩ := ih (by omega)
    have hlen : (columnKeys keys i c).length ≤ out.length := by
      rw [h2]
      by_contra hcon
      rw [not_le] at hcon
      have := (columnKeys_length keys i hi c L).1 hcon
      exact absurd (hL L (by omega)) (lt_irrefl _)
    obtain ⟨out', k1, k2, k3⟩ := fill_column (cell c) (g c) (columnKeys keys i c)
      (fun k hk => hc c (by omega) k (columnKeys_mem keys i hi c k hk)) 0 out (by omega)
    refine ⟨out', ?_, by omega, fun r hr => ?_⟩
    · rw [List.range_succ, List.foldlM_append, h1]
      simp only [bind, Except.bind, List.foldlM_cons, List.foldlM_nil] at k1 ⊢
      rw [k1]
      rfl
    · rw [k3 r _ (h3 r hr), List.range_succ, List.filterMap_append, columnKeys_getElem? keys i hi]
      simp only [Nat.zero_le, if_true, Nat.sub_zero]
      congr 2

/-- number of lines -/
theorem number_of_lines (keys : List Str) (i : ℕ) (hi : 1 ≤ i) : ∃ L, maxLen ((List.range i).map fun j => columnKeys keys i j) = .ok L ∧
    ∀ r, r * i < keys.length ↔ r < L := by
  obtain ⟨m, h1, h2⟩ := maxLen_eq ((List.range i).map fun j => columnKeys keys i j) (by
    intro h
    have := congrArg List.length h
    simp at this
    omega)
  refine ⟨m, h1, ?_⟩
  have h0 : m = (columnKeys keys i 0).length := by
    obtain ⟨h3, h4⟩ := List.max?_eq_some_iff.1 h2
    refine le_antisymm ?_ (h4 _ ?_)
    · obtain ⟨l, hl, e⟩ := List.mem_map.1 h3
      obtain ⟨j, _, e'⟩ := List.mem_map.1 hl
      rw [← e, ← e']
      by_contra hcon
      rw [not_le] at hcon
      have := (columnKeys_length keys i hi j _).1 hcon
      exact absurd ((columnKeys_length keys i hi 0 _).2 (by omega)) (lt_irrefl _)
    · exact List.mem_map_of_mem (List.mem_map.2 ⟨0, List.mem_range.2 (by omega), rfl⟩)
  intro r
  rw [h0, columnKeys_length keys i hi, Nat.add_zero]

theorem filterMap_range {δ : Type} (g : ℕ → γ → δ) (l : List γ) (i : ℕ) :
    ((List.range i).filterMap fun j => l[j]?.map (g j)) = (l.take i).mapIdx g := by
  induction i with
  | zero => rfl
  | succ i ih =>
    rw [List.range_succ, List.filterMap_append, ih, List.take_add_one, List.mapIdx_append]
    congr 1
    cases h : l[i]? with
    | none => simp [h]
    | some x =>
      have : i < l.length := (List.getElem?_eq_some_iff.1 h).1
      simp [h, List.length_take, Nat.min_eq_left this.le]

theorem flatten_chunks (l : List γ) (i L : ℕ) :
    ((List.range L).map fun r => (l.drop (r * i)).take i).flatten = l.take (L * i) := by
  induction L with
  | zero => simp
  | succ L ih =>
    rw [List.range_succ, List.map_append, List.flatten_append, ih, Nat.succ_mul, List.take_add]
    simp

end Verif.Helpers
