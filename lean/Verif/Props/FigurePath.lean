import Verif.Props.Timetrace

/-!
# C124: where the figures of a file are saved
-/

namespace Verif.Props

open Timetrace

/-- the characters before the first `.h5` of a name that ends with it -/
theorem beforeFirst_stem {stem : List Char} (h : ¬ ".h5".toList <:+: stem) :
    beforeFirst ".h5".toList (stem ++ ".h5".toList) = stem := by
  have e : ".h5".toList = ['.', 'h', '5'] := by decide
  rw [e] at h ⊢
  induction stem with
  | nil => simp [beforeFirst, List.isPrefixOf]
  | cons c s ih =>
    have hs : ¬ ['.', 'h', '5'] <:+: s := fun hi => h (hi.trans (List.suffix_cons c s).isInfix)
    have hp : ¬ (['.', 'h', '5'].isPrefixOf (c :: (s ++ ['.', 'h', '5'])) = true) := by
      intro hp
      rw [List.isPrefixOf_iff_prefix] at hp
      match s, hp with
      | [], hp => simp [List.cons_prefix_cons] at hp
      | [x], hp => simp [List.cons_prefix_cons] at hp
      | x :: y :: r, hp =>
        simp only [List.cons_append, List.cons_prefix_cons, List.nil_prefix, and_true] at hp
        obtain ⟨rfl, rfl, rfl⟩ := hp
        exact h ⟨[], r, by simp⟩
    rw [List.cons_append, beforeFirst, if_neg hp, ih hs]

/-- **C124 (names of the figures).**  Without `out_path` the figure of the file `stem.h5` is saved beside it, as
`stem_<properties>.jpg`, unless `stem` itself contains `.h5`. -/
theorem C124_figure_name {stem : List Char} (h : ¬ ".h5".toList <:+: stem) (properties : List String) :
    figurePath (stem ++ ".h5".toList) none properties
      = stem ++ ("_".toList ++ (("-".intercalate properties).toList ++ ".jpg".toList)) := by
  unfold figurePath
  rw [beforeFirst_stem h]

/-- **C124 (names of the figures), partial.**  Different files have different figures, unless their names contain `.h5` before the
extension. -/
theorem C124_own_figures_partial {stem stem' : List Char} (h : ¬ ".h5".toList <:+: stem) (h' : ¬ ".h5".toList <:+: stem')
    (hne : stem ≠ stem') (properties : List String) :
    figurePath (stem ++ ".h5".toList) none properties ≠ figurePath (stem' ++ ".h5".toList) none properties := by
  rw [C124_figure_name h, C124_figure_name h']
  exact fun e => hne (List.append_cancel_right e)

/-- **C124 (names of the figures) is violated.**  All files whose names agree up to a first `.h5`, such as the files in a directory
`stem.h5.d`, have the same figure: each overwrites the last, beside the directory and not in it. -/
theorem C124_shared_figure_violated {stem : List Char} (h : ¬ ".h5".toList <:+: stem) (rest : List Char) (properties : List String) :
    figurePath (stem ++ ".h5".toList ++ rest) none properties = figurePath (stem ++ ".h5".toList) none properties := by
  unfold figurePath
  have : ∀ t u : List Char, beforeFirst ".h5".toList (t ++ ".h5".toList) = t →
      beforeFirst ".h5".toList (t ++ ".h5".toList ++ u) = t := by
    have e : ".h5".toList = ['.', 'h', '5'] := by decide
    rw [e]
    intro t u
    induction t with
    | nil => intro _; simp [beforeFirst, List.isPrefixOf]
    | cons c s ih =>
      intro hb
      rw [List.cons_append, beforeFirst] at hb
      split at hb
      · cases hb
      · rename_i hp
        have hp' : ¬ (['.', 'h', '5'].isPrefixOf (c :: (s ++ ['.', 'h', '5'] ++ u)) = true) := by
          intro q
          refine hp ?_
          rw [List.isPrefixOf_iff_prefix] at q ⊢
          refine List.prefix_of_prefix_length_le q (l₂ := c :: (s ++ ['.', 'h', '5'])) ⟨u, by simp⟩ (by simp)
        rw [List.cons_append, List.cons_append, beforeFirst, if_neg hp', ih (List.cons.inj hb).2]
  simp only
  rw [this _ rest (beforeFirst_stem h), beforeFirst_stem h]

/-- `run.h5` -/
example : figurePath "run.h5".toList none ["energy", "enstrophy"] = "run_energy-enstrophy.jpg".toList := by
  have h := C124_figure_name (stem := "run".toList) (by decide) ["energy", "enstrophy"]
  have e : "run".toList ++ ".h5".toList = "run.h5".toList := by decide
  rw [e] at h
  rw [h]
  decide

example : figurePath "a.h5".toList none ["energy"] ≠ figurePath "b.h5".toList none ["energy"] :=
  C124_own_figures_partial (stem := "a".toList) (stem' := "b".toList) (by decide) (by decide) (by decide) ["energy"]

/-- two files in the directory `runs.h5.d` -/
example : figurePath "runs.h5.d/a.h5".toList none ["energy"] = figurePath "runs.h5.d/b.h5".toList none ["energy"] := by
  have h1 := C124_shared_figure_violated (stem := "runs".toList) (by decide) ".d/a.h5".toList ["energy"]
  have h2 := C124_shared_figure_violated (stem := "runs".toList) (by decide) ".d/b.h5".toList ["energy"]
  exact h1.trans h2.symm

end Verif.Props
