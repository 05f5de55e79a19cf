import Verif.Lemmas.Helpers
import Verif.Spec.Table

/-!
# C69: `format_print_dict`
-/

set_option linter.unusedSectionVars false

namespace Verif.Props

open Helpers Spec

variable {ν : Type}

/-- the numbers of a dictionary, in order -/
def numberItems (d : List (Str × Val ν)) : List (Str × ν) := d.filterMap fun e => match e.2 with
  | .number v => some (e.1, v)
  | _ => none

theorem filter_eq (d : List (Str × Val ν)) (h : ∀ e ∈ d, ∀ s, e.2 ≠ .text s) :
    (d.filter fun e => is_number e.2) = (numberItems d).map fun e => (e.1, Val.number e.2) := by
  induction d with
  | nil => rfl
  | cons e d ih =>
    have ih := ih fun e he => h e (List.mem_cons_of_mem _ he)
    obtain ⟨k, v⟩ := e
    unfold numberItems at ih ⊢
    cases v with
    | number v => exact congrArg (List.cons (k, Val.number v)) ih
    | text s => exact absurd rfl (h _ List.mem_cons_self s)
    | other => exact ih

theorem lookup_items (items : List (Str × ν)) (hn : (items.map Prod.fst).Nodup) (e : Str × ν) (he : e ∈ items) :
    (items.map fun e => (e.1, Val.number e.2)).lookup e.1 = some (.number e.2) := by
  induction items with
  | nil => cases he
  | cons x items ih =>
    rw [List.map_cons, List.nodup_cons] at hn
    rw [List.map_cons, List.lookup_cons]
    rcases List.mem_cons.1 he with rfl | he
    · simp
    · have : e.1 ≠ x.1 := fun h => hn.1 (h ▸ List.mem_map_of_mem he)
      simp only [beq_eq_false_iff_ne.2 this]
      exact ih hn.2 he

theorem sum_take_le (l : List ℕ) (i : ℕ) : (l.take i).sum ≤ l.sum := by
  conv_rhs => rw [← List.take_append_drop i l, List.sum_append]
  omega

theorem length_intercalate (sep : List Char) (l : List (List Char)) (h : l ≠ []) :
    (sep.intercalate l).length = (l.map List.length).sum + (l.length - 1) * sep.length := by
  induction l with
  | nil => exact absurd rfl h
  | cons x l ih =>
    cases l with
    | nil => simp [List.intercalate]
    | cons y l =>
      have ih := ih (by simp)
      rw [List.intercalate_cons_cons, List.length_append, List.length_append, ih]
      simp only [List.map_cons, List.sum_cons, List.length_cons]
      have : l.length + 1 + 1 - 1 = (l.length + 1 - 1) + 1 := by omega
      rw [this, Nat.succ_mul]
      omega

/-- the lines built for `i` columns -/
theorem build_eq (items : List (Str × ν)) (hn : (items.map Prod.fst).Nodup) (fmt : ν → Str) (spacing : Str) (i : ℕ)
    (hi : 1 ≤ i) (hil : i ≤ items.length) :
    ∃ L, (∀ r, r * i < items.length ↔ r < L) ∧
      buildLines (items.map fun e => (e.1, Val.number e.2)) fmt spacing (items.map Prod.fst)
        ((List.range i).map (width (items.map Prod.fst) i)) i =
      .ok ((List.range L).map fun r => ((items.drop (r * i)).take i).mapIdx fun j e =>
        tableCell fmt spacing (width (items.map Prod.fst) i j) e) := by
  classical
  obtain ⟨L, h1, h2⟩ := number_of_lines (items.map Prod.fst) i hi
  rw [List.length_map] at h2
  refine ⟨L, h2, ?_⟩
  have hne : items ≠ [] := by intro h; rw [h] at hil; simp at hil; omega
  obtain ⟨e0, he0⟩ := List.exists_mem_of_ne_nil _ hne
  set val : Str → ν := fun k => ((items.find? fun e => e.1 == k).getD e0).2 with hval
  have hv : ∀ e ∈ items, val e.1 = e.2 := by
    intro e he
    have hs : (items.find? fun x => x.1 == e.1).isSome := by rw [List.find?_isSome]; exact ⟨e, he, by simp⟩
    obtain ⟨x, hx⟩ := Option.isSome_iff_exists.1 hs
    have hx1 := List.find?_some hx
    have hx2 := List.mem_of_find?_eq_some hx
    have : x = e := List.inj_on_of_nodup_map hn hx2 he (by simpa using hx1)
    rw [hval]
    simp only [hx, Option.getD_some, this]
  obtain ⟨out, k1, k2, k3⟩ := fill_all
    (cell (items.map fun e => (e.1, Val.number e.2)) fmt spacing ((List.range i).map (width (items.map Prod.fst) i)))
    (fun j k => tableCell fmt spacing (width (items.map Prod.fst) i j) (k, val k)) (items.map Prod.fst) i hi
    (by
      intro j hj k hk
      obtain ⟨e, he, rfl⟩ := List.mem_map.1 hk
      unfold cell
      have : ((List.range i).map (width (items.map Prod.fst) i))[j]? = some (width (items.map Prod.fst) i j) := by
        rw [List.getElem?_map, List.getElem?_range hj]; rfl
      rw [this, lookup_items items hn e he, hv e he]
      simp only [formatValue, bind, Except.bind, pure, Except.pure, tableCell, padRight]
      congr 1
      simp) L (by intro r hr; rw [List.length_map] at hr; exact (h2 r).1 hr) i le_rfl
  unfold buildLines
  rw [h1]
  simp only [bind, Except.bind] at k1 ⊢
  rw [k1]
  congr 1
  apply List.ext_getElem?
  intro r
  by_cases hr : r < L
  · rw [k3 r hr, List.getElem?_map, List.getElem?_range hr, Option.map_some]
    congr 1
    rw [← filterMap_range]
    refine List.filterMap_congr fun j _ => ?_
    rw [List.getElem?_map, List.getElem?_drop]
    cases hx : items[r * i + j]? with
    | none => rfl
    | some e =>
      simp only [Option.map_some]
      rw [hv e (List.mem_iff_getElem?.2 ⟨_, hx⟩)]
  · rw [List.getElem?_eq_none (by omega), List.getElem?_eq_none (by simpa using hr)]

/-- what a successful search printed -/
theorem search_some (items : List (Str × ν)) (hn : (items.map Prod.fst).Nodup) (fmt : ν → Str) (spacing key_spacing : Str)
    (M vl : ℕ) (text : Str) : ∀ n ≤ items.length,
      search (items.map fun e => (e.1, Val.number e.2)) fmt spacing key_spacing M vl (items.map Prod.fst) n = .ok (some text) →
      ∃ i L, 1 ≤ i ∧ i ≤ n ∧ lineLength ((List.range i).map (width (items.map Prod.fst) i)) i spacing key_spacing vl < M ∧
        (∀ r, r * i < items.length ↔ r < L) ∧
        text = ['\n'].intercalate (((List.range L).map fun r => (items.drop (r * i)).take i).map
          (tableLine fmt spacing key_spacing (width (items.map Prod.fst) i))) := by
  intro n
  induction n with
  | zero => intro _ h; cases h
  | succ n ih =>
    intro hl h
    unfold search at h
    rw [columnWidths_eq _ _ (by rw [List.length_map]; exact hl)] at h
    simp only [bind, Except.bind] at h
    split at h
    · rename_i hlt
      obtain ⟨L, h1, h2⟩ := build_eq items hn fmt spacing (n + 1) (by omega) hl
      rw [h2] at h
      simp only [pure, Except.pure, Except.ok.injEq, Option.some.injEq] at h
      refine ⟨n + 1, L, by omega, le_rfl, hlt, h1, ?_⟩
      rw [← h, List.map_map, List.map_map]
      rfl
    · obtain ⟨i, L, a, b, c⟩ := ih (by omega) h
      exact ⟨i, L, a, by omega, c⟩

/-- the width that `format_print_dict` may use -/
def allowedWidth (max_line_length : ℕ) (terminal : Option ℕ) : ℕ := match terminal with
  | none => max_line_length
  | some c => min max_line_length c

theorem format_eq (d : List (Str × Val ν)) (ht : ∀ e ∈ d, ∀ s, e.2 ≠ .text s) (hne : numberItems d ≠ []) (fmt : ν → Str)
    (spacing key_spacing : Str) (M vl : ℕ) (terminal : Option ℕ) :
    format_print_dict d fmt spacing key_spacing M vl terminal =
      search ((numberItems d).map fun e => (e.1, Val.number e.2)) fmt spacing key_spacing (allowedWidth M terminal) vl
        ((numberItems d).map Prod.fst) (numberItems d).length := by
  unfold format_print_dict
  simp only
  rw [filter_eq d ht]
  have hk : ((numberItems d).map fun e => (e.1, Val.number e.2)).map Prod.fst = (numberItems d).map Prod.fst := by
    rw [List.map_map]; rfl
  rw [hk]
  obtain ⟨m, h1, _⟩ := maxLen_eq ((numberItems d).map Prod.fst) (by simpa using hne)
  rw [h1, List.length_map]
  rfl

theorem nodup_items (d : List (Str × Val ν)) (hn : (d.map Prod.fst).Nodup) : ((numberItems d).map Prod.fst).Nodup := by
  refine List.Nodup.sublist ?_ hn
  induction d with
  | nil => exact List.Sublist.refl _
  | cons e d ih =>
    rw [List.map_cons, List.nodup_cons] at hn
    obtain ⟨k, v⟩ := e
    unfold numberItems at ih ⊢
    cases v with
    | number v => exact (ih hn.2).cons_cons k
    | text s => exact (ih hn.2).cons k
    | other => exact (ih hn.2).cons k

/-- **C69.**  Whatever `format_print_dict` prints for a dictionary without texts
among its values is a table that shows every number once, in the order of the
dictionary, with aligned columns; and if no number is longer than the length
reserved for numbers, every line is shorter than the allowed width. -/
theorem C69_table_partial (d : List (Str × Val ν)) (hn : (d.map Prod.fst).Nodup) (ht : ∀ e ∈ d, ∀ s, e.2 ≠ .text s)
    (fmt : ν → Str) (spacing key_spacing : Str) (max_line_length value_length : ℕ) (terminal : Option ℕ) (text : Str)
    (h : format_print_dict d fmt spacing key_spacing max_line_length value_length terminal = .ok (some text)) :
    ∃ rows w, IsTable fmt spacing key_spacing (numberItems d) rows w text ∧
      ((∀ e ∈ numberItems d, (fmt e.2).length ≤ value_length) →
        ∀ row ∈ rows, (tableLine fmt spacing key_spacing w row).length < allowedWidth max_line_length terminal) := by
  by_cases hne : numberItems d = []
  · exfalso
    unfold format_print_dict at h
    simp only at h
    rw [filter_eq d ht, hne] at h
    cases h
  rw [format_eq d ht hne] at h
  obtain ⟨i, L, hi, hil, hlt, hL, rfl⟩ := search_some _ (nodup_items d hn) fmt spacing key_spacing _ _ text _ le_rfl h
  set items := numberItems d
  have hpos : 0 < items.length := List.length_pos_iff.2 hne
  have row_of : ∀ row ∈ (List.range L).map (fun r => (items.drop (r * i)).take i),
      ∃ r, r * i < items.length ∧ row = (items.drop (r * i)).take i := by
    intro row hrow
    obtain ⟨r, hr, rfl⟩ := List.mem_map.1 hrow
    exact ⟨r, (hL r).2 (List.mem_range.1 hr), rfl⟩
  have ali : ∀ row ∈ (List.range L).map (fun r => (items.drop (r * i)).take i), ∀ (j : ℕ) (e : Str × ν), row[j]? = some e →
      j < i ∧ e ∈ items ∧ e.1.length + 1 ≤ width (items.map Prod.fst) i j := by
    intro row hrow j e he
    obtain ⟨r, hr, rfl⟩ := row_of row hrow
    rw [List.getElem?_take] at he
    split at he
    · rename_i hj
      rw [List.getElem?_drop] at he
      exact ⟨hj, List.mem_iff_getElem?.2 ⟨_, he⟩, le_width _ i hi j r e.1 (by rw [List.getElem?_map, he]; rfl)⟩
    · cases he
  refine ⟨(List.range L).map fun r => (items.drop (r * i)).take i, width (items.map Prod.fst) i,
    ⟨?_, rfl, fun row hrow j e he => (ali row hrow j e he).2.2, i, hi, ?_, ?_⟩, ?_⟩
  · rw [flatten_chunks, List.take_of_length_le]
    by_contra hcon
    exact absurd ((hL L).1 (by omega)) (lt_irrefl _)
  · intro r hr
    rw [List.length_map, List.length_range] at hr
    refine ⟨_, by rw [List.getElem?_map, List.getElem?_range (by omega)]; rfl, ?_⟩
    have := (hL (r + 1)).2 hr
    rw [Nat.succ_mul] at this
    rw [List.length_take, List.length_drop]
    omega
  · intro row hrow
    obtain ⟨r, hr, rfl⟩ := row_of row hrow
    rw [List.length_take, List.length_drop]
    omega
  · intro hfmt row hrow
    refine lt_of_le_of_lt ?_ hlt
    have hrl : row.length ≤ i ∧ row ≠ [] := by
      obtain ⟨r, hr, rfl⟩ := row_of row hrow
      refine ⟨List.length_take_le _ _, fun h => ?_⟩
      have := congrArg List.length h
      rw [List.length_take, List.length_drop, List.length_nil] at this
      omega
    unfold tableLine lineLength
    rw [length_intercalate _ _ (by intro h; exact hrl.2 (List.mapIdx_eq_nil_iff.1 h)), List.length_mapIdx]
    have hs : ((row.mapIdx fun j e => tableCell fmt spacing (width (items.map Prod.fst) i j) e).map List.length).sum ≤
        (((List.range i).map (width (items.map Prod.fst) i)).map fun w => w + spacing.length + value_length).sum := by
      refine le_trans ?_ (sum_take_le _ row.length)
      refine List.Forall₂.sum_le_sum ?_
      rw [List.forall₂_iff_get]
      refine ⟨by simp [hrl.1], fun j h1 h2 => ?_⟩
      have hj : j < row.length := by simpa using h1
      obtain ⟨a, b, c⟩ := ali row hrow j row[j] (List.getElem?_eq_getElem hj)
      have := hfmt _ b
      simp only [List.get_eq_getElem, List.getElem_map, List.getElem_mapIdx, List.getElem_take, List.getElem_range]
      unfold tableCell
      simp only [List.length_append, List.length_replicate, List.length_singleton]
      omega
    have := Nat.mul_le_mul_right key_spacing.length (show row.length - 1 ≤ i - 1 by omega)
    omega

theorem search_prints (items : List (Str × ν)) (hn : (items.map Prod.fst).Nodup) (fmt : ν → Str) (spacing key_spacing : Str)
    (M vl : ℕ) (hfit : lineLength ((List.range 1).map (width (items.map Prod.fst) 1)) 1 spacing key_spacing vl < M) :
    ∀ n, 1 ≤ n → n ≤ items.length → ∃ text,
      search (items.map fun e => (e.1, Val.number e.2)) fmt spacing key_spacing M vl (items.map Prod.fst) n = .ok (some text) := by
  intro n
  induction n with
  | zero => intro h; omega
  | succ n ih =>
    intro _ hl
    unfold search
    rw [columnWidths_eq _ _ (by rw [List.length_map]; exact hl)]
    simp only [bind, Except.bind]
    split
    · obtain ⟨L, h1, h2⟩ := build_eq items hn fmt spacing (n + 1) (by omega) hl
      rw [h2]
      exact ⟨_, rfl⟩
    · rename_i hcon
      rcases Nat.eq_zero_or_pos n with rfl | hn0
      · exact absurd hfit hcon
      · exact ih hn0 (by omega)

/-- **C69**: the table is printed if the longest name with its number fits into a
line. -/
theorem C69_prints (d : List (Str × Val ν)) (hn : (d.map Prod.fst).Nodup) (ht : ∀ e ∈ d, ∀ s, e.2 ≠ .text s)
    (hne : numberItems d ≠ []) (fmt : ν → Str) (spacing key_spacing : Str) (max_line_length value_length : ℕ)
    (terminal : Option ℕ)
    (hfit : ∀ e ∈ numberItems d, e.1.length + 1 + spacing.length + value_length < allowedWidth max_line_length terminal) :
    ∃ text, format_print_dict d fmt spacing key_spacing max_line_length value_length terminal = .ok (some text) := by
  rw [format_eq d ht hne]
  have hpos : 0 < (numberItems d).length := List.length_pos_iff.2 hne
  refine search_prints _ (nodup_items d hn) fmt spacing key_spacing _ _ ?_ _ hpos le_rfl
  obtain ⟨e0, he0⟩ := List.exists_mem_of_ne_nil _ hne
  have h0 := hfit e0 he0
  have := width_le ((numberItems d).map Prod.fst) 1 le_rfl 0
    (allowedWidth max_line_length terminal - 1 - spacing.length - value_length - 1) (by
      intro k hk
      obtain ⟨e, he, rfl⟩ := List.mem_map.1 hk
      have := hfit e he
      omega)
  unfold lineLength
  simp only [List.range_one, List.map_cons, List.map_nil, List.sum_cons, List.sum_nil]
  omega

/-- **C69 is violated** for narrow terminals: if one name with its number does not
fit, nothing at all is printed. -/
theorem C69_too_narrow_violated (d : List (Str × Val ν)) (ht : ∀ e ∈ d, ∀ s, e.2 ≠ .text s) (fmt : ν → Str)
    (spacing key_spacing : Str) (max_line_length value_length : ℕ) (terminal : Option ℕ) (e : Str × ν)
    (he : e ∈ numberItems d)
    (hlong : allowedWidth max_line_length terminal ≤ e.1.length + 1 + spacing.length + value_length) :
    format_print_dict d fmt spacing key_spacing max_line_length value_length terminal = .ok none := by
  rw [format_eq d ht (List.ne_nil_of_mem he)]
  have key : ∀ n ≤ (numberItems d).length, search ((numberItems d).map fun e => (e.1, Val.number e.2)) fmt spacing key_spacing
      (allowedWidth max_line_length terminal) value_length ((numberItems d).map Prod.fst) n = .ok none := by
    intro n
    induction n with
    | zero => intro _; rfl
    | succ n ih =>
      intro hl
      unfold search
      rw [columnWidths_eq _ _ (by rw [List.length_map]; exact hl)]
      simp only [bind, Except.bind]
      rw [if_neg, ih (by omega)]
      rw [not_lt]
      refine hlong.trans ?_
      obtain ⟨q, hq⟩ := List.mem_iff_getElem?.1 he
      have hj : q % (n + 1) < n + 1 := Nat.mod_lt _ (by omega)
      have hw := le_width ((numberItems d).map Prod.fst) (n + 1) (by omega) (q % (n + 1)) (q / (n + 1)) e.1 (by
        rw [Nat.div_add_mod', List.getElem?_map, hq]; rfl)
      unfold lineLength
      rw [List.map_map]
      have := List.le_sum_of_mem (List.mem_map_of_mem (f := (fun w => w + spacing.length + value_length) ∘
        width ((numberItems d).map Prod.fst) (n + 1)) (List.mem_range.2 hj))
      simp only [Function.comp_apply] at this
      omega
  exact key _ le_rfl

/-- **C69 is violated**: a dictionary without numbers raises a `ValueError`. -/
theorem C69_no_numbers_violated (d : List (Str × Val ν)) (h : ∀ e ∈ d, e.2 = .other) (fmt : ν → Str)
    (spacing key_spacing : Str) (max_line_length value_length : ℕ) (terminal : Option ℕ) :
    format_print_dict d fmt spacing key_spacing max_line_length value_length terminal = .error .valueError := by
  have : (d.filter fun e => is_number e.2) = [] := by
    rw [List.filter_eq_nil_iff]
    intro e he
    rw [h e he]
    simp [is_number]
  unfold format_print_dict
  simp only
  rw [this]
  rfl

/-- **C69 is violated**: a text among the values (which should be skipped) raises a
`ValueError`. -/
theorem C69_text_violated (k s : Str) (fmt : ν → Str) (spacing key_spacing : Str) (max_line_length value_length : ℕ)
    (hfit : k.length + 1 + spacing.length + value_length < max_line_length) :
    format_print_dict [(k, .text s)] fmt spacing key_spacing max_line_length value_length none = .error .valueError := by
  have hc : columnKeys [k] 1 0 = [k] := by simp [columnKeys, everyNth]
  simp [format_print_dict, is_number, maxLen, search, columnWidths, hc, lineLength, buildLines, cell, formatValue, bind,
    Except.bind, pure, Except.pure, List.range_succ, hfit]

/-- **C69 is violated**: a number longer than the length reserved for numbers makes
lines longer than the allowed width (here 25 characters instead of 24, with the default format, for two
values `-1.2e-05`). -/
theorem C69_width_violated : format_print_dict [("a".toList, .number ()), ("b".toList, .number ())] (fun _ => "-1.2e-05".toList)
    " ".toList " | ".toList 24 7 none = .ok (some "a: -1.2e-05 | b: -1.2e-05".toList) := by
  decide +kernel

/-- a dictionary with three numbers and an array -/
def demoDict : List (Str × Val ℕ) :=
  [("dt".toList, .number 1), ("field".toList, .other), ("nu".toList, .number 2), ("c1".toList, .number 3)]

example : numberItems demoDict = [("dt".toList, 1), ("nu".toList, 2), ("c1".toList, 3)] := by decide +kernel

/-- two lines: `dt:       1 | nu:       2` and `c1:       3` -/
example : ∃ text, format_print_dict demoDict (fun v => ("      " ++ toString v).toList) " ".toList " | ".toList 30 7 none =
    .ok (some text) ∧ ∃ rows w, IsTable (fun v => ("      " ++ toString v).toList) " ".toList " | ".toList (numberItems demoDict)
      rows w text := by
  obtain ⟨text, h⟩ := C69_prints demoDict (by decide +kernel) (by simp [demoDict]) (by decide +kernel)
    (fun v => ("      " ++ toString v).toList) " ".toList " | ".toList 30 7 none (by decide +kernel)
  obtain ⟨rows, w, h1, _⟩ := C69_table_partial demoDict (by decide +kernel) (by simp [demoDict]) _ _ _ _ _ _ text h
  exact ⟨text, h, rows, w, h1⟩

example : format_print_dict demoDict (fun v => ("      " ++ toString v).toList) " ".toList " | ".toList 30 7 none =
    .ok (some "dt:       1 | nu:       2\nc1:       3".toList) := by decide +kernel

example : format_print_dict demoDict (fun v => ("      " ++ toString v).toList) " ".toList " | ".toList 30 7 (some 11) = .ok none :=
  C69_too_narrow_violated demoDict (by simp [demoDict]) _ _ _ _ _ _ ("dt".toList, 1) (by decide +kernel) (by decide +kernel)

example := C69_no_numbers_violated [("a".toList, (.other : Helpers.Val ℕ)), ("b".toList, .other)] (by simp) (fun _ => []) [' '] ['|'] 24 7 none

example := C69_text_violated (ν := ℕ) "name".toList "hw".toList (fun _ => []) [' '] ['|'] 24 7 (by decide)

end Verif.Props
