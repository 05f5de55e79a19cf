import Verif.Props.Plot
import Verif.Spec.Labels

/-!
# C70: the labels one by one, and `metric_format`; C68: the names of image files
-/

namespace Verif.Props

open Plot Spec

/-! ### C70: labels -/

private theorem label_labelled {s : String} (h : s ∉ labelled) : label s = none := by
  unfold label
  split
  all_goals first
    | rfl
    | exact absurd (by decide) h

private theorem names_label (s : String) : names s = match label s with
    | some r => .ok r
    | none => .error (.keyError s) := by
  by_cases h : s ∈ labelled
  · revert s
    decide +kernel
  · rw [label_labelled h]
    unfold names
    have : namesLiteral.reverse.lookup s = none := by
      rw [List.lookup_eq_none_iff]
      intro p hp
      rw [bne_iff_ne]
      rintro rfl
      refine h ?_
      clear h
      revert p
      decide +kernel
    rw [this]

/-- **C70, every label.** `latex_format` returns the label of the specification, or its
argument if there is none. -/
theorem C70_labels (s : String) : latex_format s = .ok ((label s).getD s) := by
  unfold latex_format
  rw [names_label]
  cases label s <;> rfl

/-- the fields and the properties a run can record -/
def recordable : List String :=
  ["density", "omega", "phi", "gamma_n", "gamma_n_spectral", "gamma_c", "energy", "thermal_energy", "kinetic_energy",
    "enstrophy", "enstrophy_phi"]

/-- **C70, the names a run records.** The three fields and the properties a run can record all
have a label, and the labels differ from each other: two curves of a plot never have the
same label. -/
theorem C70_distinct (s s' : String) (h : s ∈ recordable) (h' : s' ∈ recordable) :
    (label s).isSome ∧ (latex_format s = latex_format s' → s = s') := by
  have key : ∀ s ∈ recordable, ∀ s' ∈ recordable,
      (label s).isSome ∧ ((label s).getD s = (label s').getD s' → s = s') := by decide +kernel
  refine ⟨(key s h s' h').1, fun he => (key s h s' h').2 ?_⟩
  rw [C70_labels, C70_labels] at he
  injection he

example : latex_format "energy" ≠ latex_format "enstrophy" := fun h =>
  absurd ((C70_distinct "energy" "enstrophy" (by decide) (by decide)).2 h) (by decide)

/-- **C70 is violated for other pairs of names**: the entry of "std_gamma_n" for
the deviation of `gamma_n` is overwritten by the one of its integral, and three
pairs of names share a label. -/
theorem C70_shared_violated :
    latex_format "std_gamma_n" = .ok "$\\sigma \\left( \\int \\Gamma_n \\left(k_y\\right) \\right)$" ∧
    latex_format "DE_v" = latex_format "DEv" ∧ latex_format "DE_n" = latex_format "DEn" ∧
    latex_format "int_gamma_n" = latex_format "integrated gamma_n" := by
  simp only [C70_labels]
  decide +kernel

/-! ### C70: labels of statistics -/

private theorem infix_head {m : String} (h : m ∈ ["mean", "median", "std"]) (t : List Char) (s : String)
    (hs : s.toList = m.toList ++ t) : (["mean", "median", "std"].any fun x => decide (x.toList <:+: s.toList)) = true :=
  List.any_eq_true.2 ⟨m, h, by rw [decide_eq_true_iff, hs]; exact (List.prefix_append _ _).isInfix⟩

private theorem no_underscore {m : String} (h : m ∈ ["mean", "median", "std"]) : '_' ∉ m.toList := by
  revert m; decide

/-- **C70, `metric_format`.** For the mean, median or standard deviation of a name with a
label: the kind of statistics, a space and the label. -/
theorem C70_metric_partial (m k r : String) (h : m ∈ ["mean", "median", "std"]) (hk : label k = some r) :
    metric_format (m ++ "_" ++ k) = .ok (m ++ " " ++ r) := by
  have hl : (m ++ "_" ++ k).toList = m.toList ++ '_' :: k.toList := by
    rw [String.toList_append, String.toList_append, List.append_assoc]; rfl
  have hi : (m.toList ++ '_' :: k.toList).idxOf '_' = m.toList.length := by
    rw [List.idxOf_append_of_notMem (no_underscore h), List.idxOf_cons_self, Nat.add_zero]
  unfold metric_format
  rw [if_pos (infix_head h _ _ hl), hl, hi]
  simp only
  rw [if_pos (by simp), List.take_left, List.drop_append, List.drop_eq_nil_of_le (by omega), Nat.add_sub_cancel_left,
    List.nil_append, List.drop_succ_cons, List.drop_zero, String.ofList_toList, names_label, hk]
  simp only [String.ofList_append, String.ofList_toList]
  rfl

example := C70_metric_partial "std" "phi" _ (by decide) rfl

/-- **C70, `metric_format`, other names.** A text that mentions no statistics has the empty label. -/
theorem C70_metric_empty (s : String) (h : ∀ m ∈ ["mean", "median", "std"], ¬ m.toList <:+: s.toList) :
    metric_format s = .ok "" := by
  unfold metric_format
  rw [if_neg]
  rw [List.any_eq_true]
  rintro ⟨m, hm, hd⟩
  exact h m hm (of_decide_eq_true hd)

example := C70_metric_empty "phi" (by decide)

/-- **C70 is violated by `metric_format`**: for a name without a label it raises `KeyError`
where `latex_format` returns the name, and without `_` it cuts off the last
character: the label of "mean" is "mea $\\mu$". -/
theorem C70_metric_violated : (∀ m ∈ ["mean", "median", "std"], ∀ k, label k = none →
      metric_format (m ++ "_" ++ k) = .error (.keyError k)) ∧
    metric_format "mean" = .ok "mea $\\mu$" := by
  refine ⟨fun m h k hk => ?_, ?_⟩
  · have hl : (m ++ "_" ++ k).toList = m.toList ++ '_' :: k.toList := by
      rw [String.toList_append, String.toList_append, List.append_assoc]; rfl
    have hi : (m.toList ++ '_' :: k.toList).idxOf '_' = m.toList.length := by
      rw [List.idxOf_append_of_notMem (no_underscore h), List.idxOf_cons_self, Nat.add_zero]
    unfold metric_format
    rw [if_pos (infix_head h _ _ hl), hl, hi]
    simp only
    rw [if_pos (by simp), List.take_left, List.drop_append, List.drop_eq_nil_of_le (by omega), Nat.add_sub_cancel_left,
      List.nil_append, List.drop_succ_cons, List.drop_zero, String.ofList_toList, names_label, hk]
    rfl
  · decide +kernel

/-! ### C68: the path of an image -/

/-- `s` with every (leftmost, non-overlapping) occurrence of `old` replaced by `new`, as a
relation: text without occurrences is kept, and text before the first occurrence
is kept, the occurrence replaced, and the rest treated in the same way -/
inductive Replaced {A : Type} (old new : List A) : List A → List A → Prop
  | none {s : List A} : ¬ old <:+: s → Replaced old new s s
  | first {a b r : List A} : ¬ old <:+: a ++ old.dropLast → Replaced old new b r →
      Replaced old new (a ++ old ++ b) (a ++ new ++ r)

private theorem replaceAll_none {old new s : List Char} (h : ¬ old <:+: s) : replaceAll old new s = s := by
  induction s with
  | nil => unfold replaceAll; rfl
  | cons c s ih =>
    unfold replaceAll
    rw [if_neg fun hp => h (List.isPrefixOf_iff_prefix.1 hp).isInfix,
      ih fun hi => h (hi.trans (List.suffix_cons c s).isInfix)]

private theorem replaceAll_first {old new a b : List Char} (hne : old ≠ []) (h : ¬ old <:+: a ++ old.dropLast) :
    replaceAll old new (a ++ old ++ b) = a ++ new ++ replaceAll old new b := by
  induction a with
  | nil =>
    cases old with
    | nil => exact absurd rfl hne
    | cons c o =>
      simp only [List.nil_append, List.cons_append]
      conv_lhs => unfold replaceAll
      rw [if_pos (List.isPrefixOf_iff_prefix.2 (by rw [← List.cons_append]; exact List.prefix_append _ _))]
      simp
  | cons x a ih =>
    simp only [List.cons_append] at h ⊢
    conv_lhs => unfold replaceAll
    rw [if_neg, ih fun hi => h (hi.trans (List.suffix_cons _ _).isInfix)]
    intro hp
    refine h ?_
    have hp := List.isPrefixOf_iff_prefix.1 hp
    have h2 : x :: (a ++ old.dropLast) <+: x :: (a ++ old ++ b) := by
      rw [List.append_assoc]
      exact List.cons_prefix_cons.2 ⟨rfl, (List.prefix_append_right_inj a).2 ((List.dropLast_prefix old).trans (List.prefix_append _ _))⟩
    exact (List.prefix_of_prefix_length_le hp h2 (by simp; omega)).isInfix

/-- the text after replacing is unique -/
private theorem replaced_eq {old new s r : List Char} (hne : old ≠ []) (h : Replaced old new s r) :
    replaceAll old new s = r := by
  induction h with
  | none h => exact replaceAll_none h
  | first h _ ih => rw [replaceAll_first hne h, ih]

/-- every text can be treated in this way -/
theorem replaced_exists {A : Type} {old : List A} (new : List A) (hne : old ≠ []) : ∀ s : List A, ∃ r, Replaced old new s r := by
  classical
  intro s
  induction hn : s.length using Nat.strong_induction_on generalizing s with
  | _ n ih =>
    by_cases h : old <:+: s
    · obtain ⟨a, b, hab⟩ := h
      have hex : ∃ m, ∃ a b, a ++ old ++ b = s ∧ a.length = m := ⟨_, a, b, hab, rfl⟩
      obtain ⟨a, b, hs, hm⟩ := Nat.find_spec hex
      have hlt : b.length < n := by
        have : 0 < old.length := List.length_pos_iff.2 hne
        rw [← hn, ← hs]; simp; omega
      obtain ⟨r, hr⟩ := ih _ hlt b rfl
      rw [← hs]
      refine ⟨_, Replaced.first ?_ hr⟩
      rintro ⟨a', b', h'⟩
      have hd := List.dropLast_append_getLast hne
      refine Nat.find_min hex (m := a'.length) ?_ ⟨a', b' ++ [old.getLast hne] ++ b, ?_, rfl⟩
      · have := congrArg List.length h'
        have h0 : 0 < old.length := List.length_pos_iff.2 hne
        simp at this
        omega
      · rw [← hs]
        conv_rhs => rw [← hd]
        rw [← List.append_assoc a, ← h']
        simp
    · exact ⟨s, .none h⟩

/-- **C68, the path.** The image of time `t` of the file at `file` is saved to the path of the file
with every ".h5" replaced by ".jpg", then "_t=" and the time; the last four characters of
this are replaced by the type. -/
theorem C68_path (file r type : List Char) (t : ℕ) (h : Replaced ".h5".toList ".jpg".toList file r) :
    savePath file t type = (r ++ "_t=".toList ++ decimal t).dropLast.dropLast.dropLast.dropLast ++ type := by
  rw [savePath_eq, replaced_eq (by decide) h]
  congr 1
  simp only [List.dropLast_eq_take, List.take_take, List.length_take, List.length_append]
  congr 1
  have : "_t=".toList.length = 3 := rfl
  omega

/-- "a.h5/b.h5" at time 12345 -/
example : savePath "a.h5/b.h5".toList 12345 ".png".toList = "a.jpg/b.jpg_t=1.png".toList :=
  (C68_path _ "a.jpg/b.jpg".toList _ _ (Replaced.first (a := "a".toList) (b := "/b.h5".toList) (r := "/b.jpg".toList)
    (by decide) (Replaced.first (a := "/b".toList) (b := []) (r := []) (by decide) (.none (by decide))))).trans
    (by decide +kernel)

end Verif.Props
