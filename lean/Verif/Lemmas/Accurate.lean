import Mathlib.Analysis.Calculus.ContDiff.Operations
import Mathlib.Analysis.Calculus.ContDiff.RCLike
import Mathlib.Analysis.Normed.Module.FiniteDimension

/-!
# Maps computed by a family of machines whose errors are proportional to a precision `δ`
-/

namespace Verif.Accurate

open Metric

variable {I : Type*} {δ : I → ℝ}
variable {X Y Z : Type*} [NormedAddCommGroup X] [NormedSpace ℝ X] [NormedAddCommGroup Y] [NormedSpace ℝ Y]
  [NormedAddCommGroup Z] [NormedSpace ℝ Z]
variable {T T' : I → Type*}

/-- `F m x` is what machine `m` computes for `G x`; `v m` reads off the value of a machine object.  On every
ball the error is at most a constant times the precision of the machine. -/
structure Acc (δ : I → ℝ) (v : ∀ m, T m → Y) (F : ∀ m, X → T m) (G : X → Y) : Prop where
  smooth : ContDiff ℝ 1 G
  err : ∀ r : ℝ, ∃ C, 0 ≤ C ∧ ∀ m x, ‖x‖ ≤ r → ‖v m (F m x) - G x‖ ≤ C * δ m

/-- an operation of the machines -/
structure Op (δ : I → ℝ) (v : ∀ m, T m → Y) (v' : ∀ m, T' m → Z) (op : ∀ m, T m → T' m) (G : Y → Z) : Prop where
  smooth : ContDiff ℝ 1 G
  err : ∀ r : ℝ, ∃ C, 0 ≤ C ∧ ∀ m t, ‖v m t‖ ≤ r → ‖v' m (op m t) - G (v m t)‖ ≤ C * δ m

variable {v : ∀ m, T m → Y} {v' : ∀ m, T' m → Z}

theorem Acc.exact {F : ∀ m, X → T m} {G : X → Y} (hG : ContDiff ℝ 1 G) (e : ∀ m x, v m (F m x) = G x) : Acc δ v F G :=
  ⟨hG, fun _ => ⟨0, le_rfl, fun m x _ => by rw [e, sub_self, norm_zero, zero_mul]⟩⟩

theorem Acc.prod {F : ∀ m, X → T m} {G : X → Y} {F' : ∀ m, X → T' m} {G' : X → Z} (H : Acc δ v F G)
    (H' : Acc δ v' F' G') (hδ : ∀ m, 0 ≤ δ m) : Acc δ (fun m (t : T m × T' m) => (v m t.1, v' m t.2))
      (fun m x => (F m x, F' m x)) (fun x => (G x, G' x)) where
  smooth := ContDiff.prodMk H.smooth H'.smooth
  err r := by
    obtain ⟨C, hC, h⟩ := H.err r
    obtain ⟨C', hC', h'⟩ := H'.err r
    refine ⟨max C C', le_max_of_le_left hC, fun m x hx => ?_⟩
    rw [Prod.mk_sub_mk, Prod.norm_mk]
    exact max_le ((h m x hx).trans (mul_le_mul_of_nonneg_right (le_max_left _ _) (hδ m)))
      ((h' m x hx).trans (mul_le_mul_of_nonneg_right (le_max_right _ _) (hδ m)))

theorem Op.comp [FiniteDimensional ℝ X] [FiniteDimensional ℝ Y] {op : ∀ m, T m → T' m} {G' : Y → Z}
    (O : Op δ v v' op G') {F : ∀ m, X → T m} {G : X → Y} (H : Acc δ v F G) (h1 : ∀ m, δ m ≤ 1) :
    Acc δ v' (fun m x => op m (F m x)) (fun x => G' (G x)) where
  smooth := ContDiff.comp O.smooth H.smooth
  err r := by
    have : ProperSpace X := FiniteDimensional.proper ℝ X
    have : ProperSpace Y := FiniteDimensional.proper ℝ Y
    obtain ⟨C, hC, h⟩ := H.err r
    obtain ⟨B, hB⟩ := (isCompact_closedBall (0 : X) r).bddAbove_image H.smooth.continuous.norm.continuousOn
    have hB' : ∀ x, ‖x‖ ≤ r → ‖G x‖ ≤ B := fun x hx => hB ⟨x, by simpa using hx, rfl⟩
    obtain ⟨C', hC', h'⟩ := O.err (B + C)
    obtain ⟨K, hK⟩ := (O.smooth.locallyLipschitz.locallyLipschitzOn
      (s := closedBall (0 : Y) (B + C))).exists_lipschitzOnWith_of_compact (isCompact_closedBall _ _)
    refine ⟨C' + K * C, by positivity, fun m x hx => ?_⟩
    have e1 := h m x hx
    have e2 := hB' x hx
    have e3 : C * δ m ≤ C := mul_le_of_le_one_right hC (h1 m)
    have n1 : ‖v m (F m x)‖ ≤ B + C := by
      have t := norm_add_le (v m (F m x) - G x) (G x)
      rw [sub_add_cancel] at t
      linarith
    have e4 := h' m (F m x) n1
    have e5 := hK.dist_le_mul (v m (F m x)) (by simpa using n1) (G x) (by simp; linarith)
    rw [dist_eq_norm, dist_eq_norm] at e5
    have e6 : (K : ℝ) * ‖v m (F m x) - G x‖ ≤ K * (C * δ m) := mul_le_mul_of_nonneg_left e1 K.2
    have t := norm_add_le (v' m (op m (F m x)) - G' (v m (F m x))) (G' (v m (F m x)) - G' (G x))
    rw [sub_add_sub_cancel] at t
    linarith

end Verif.Accurate
