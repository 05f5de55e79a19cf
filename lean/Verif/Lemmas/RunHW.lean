import Verif.Model.RunHW
import Verif.Lemmas.NSSet

/-!
# The state returned by `HW.rk4_step`
-/

namespace Verif

open Run

theorem M_bind {A B : Type} {m : M A} {k : A → M B} {c : Calls} {r : B × Calls} (h : (m >>= k) c = .ok r) :
    ∃ a c', m c = .ok (a, c') ∧ k a c' = .ok r := by
  have e : (m >>= k) c = (m c >>= fun p => k p.1 p.2) := rfl
  rw [e] at h
  cases hm : m c with
  | error e => rw [hm] at h; cases h
  | ok p =>
    rw [hm] at h
    exact ⟨p.1, p.2, rfl, h⟩

theorem lift_ok {A : Type} {x : Py A} {c : Calls} {r : A × Calls} (h : M.lift x c = .ok r) : x = .ok r.1 ∧ r.2 = c := by
  unfold M.lift at h
  cases x with
  | error e => cases h
  | ok a => injection h with h; subst h; exact ⟨rfl, rfl⟩

theorem get_phi_calls {hw : HW} {om : Arr ℝ} {dx : ℝ} {c c' : Calls} {p : Arr ℝ}
    (h : hw.get_phi om dx c = .ok (p, c')) (c2 : Calls) : ∃ c3, hw.get_phi om dx c2 = .ok (p, c3) := by
  unfold HW.get_phi at h ⊢
  obtain ⟨a, c1, h1, h⟩ := M_bind h
  obtain ⟨b, c4, h2, h3⟩ := M_bind h
  obtain ⟨h1, -⟩ := lift_ok h1
  injection h3 with h3
  injection h3 with h3 h3'
  simp only at h1
  subst h3
  refine ⟨{ c2 with get_phi := c2.get_phi + 1 }, ?_⟩
  rw [h1]
  rfl

theorem rk4_phi {hw : HW} {s : NS Val} {dt dx : ℝ} {c c' : Calls} {r : NS Val}
    (h : hw.rk4_step s dt dx c = .ok (r, c')) :
    ∃ om p, r.get? "omega" = some (.arr om) ∧ r.get? "phi" = some (.arr p) ∧
      ∃ c1 c2, hw.get_phi om dx c1 = .ok (p, c2) := by
  unfold HW.rk4_step at h
  obtain ⟨_, _, _, h⟩ := M_bind h
  obtain ⟨_, _, _, h⟩ := M_bind h
  obtain ⟨_, _, _, h⟩ := M_bind h
  obtain ⟨_, _, _, h⟩ := M_bind h
  obtain ⟨_, _, _, h⟩ := M_bind h
  obtain ⟨_, _, _, h⟩ := M_bind h
  obtain ⟨_, _, _, h⟩ := M_bind h
  obtain ⟨_, _, _, h⟩ := M_bind h
  obtain ⟨_, _, _, h⟩ := M_bind h
  obtain ⟨_, _, _, h⟩ := M_bind h
  obtain ⟨_, _, _, h⟩ := M_bind h
  obtain ⟨_, _, _, h⟩ := M_bind h
  obtain ⟨_, _, _, h⟩ := M_bind h
  obtain ⟨_, _, _, h⟩ := M_bind h
  obtain ⟨_, _, _, h⟩ := M_bind h
  obtain ⟨yk1, c5, _, h⟩ := M_bind h
  obtain ⟨phi, c6, hphi, h⟩ := M_bind h
  obtain ⟨_, _, _, h⟩ := M_bind h
  obtain ⟨age, _, _, h⟩ := M_bind h
  obtain ⟨_, _, _, h⟩ := M_bind h
  injection h with h
  injection h with h _
  subst h
  unfold HW.get_phi_of at hphi
  obtain ⟨om, c7, h1, hphi⟩ := M_bind hphi
  obtain ⟨om', c8, h2, hphi⟩ := M_bind hphi
  obtain ⟨p, c9, h3, hphi⟩ := M_bind hphi
  injection hphi with hphi
  injection hphi with hphi _
  subst hphi
  obtain ⟨h1, -⟩ := lift_ok h1
  obtain ⟨h2, -⟩ := lift_ok h2
  have hom : om = .arr om' := by
    cases om with
    | arr a => simp only [Val.asArr] at h2; injection h2 with h2; rw [h2]
    | num x => cases h2
  refine ⟨om', p, ?_, ?_, c8, c9, h3⟩
  · rw [NS.get?_set, if_neg (by decide), NS.get?_set, if_neg (by decide)]
    unfold NS.getItem at h1
    split at h1
    · next v hv =>
      injection h1 with h1
      simp only at h1
      rw [hv, h1, hom]
    · cases h1
  · rw [NS.get?_set, if_neg (by decide), NS.get?_set, if_pos rfl]

theorem get?_map {A B : Type} (F : A → B) (s : NS A) (k : String) :
    NS.get? (s.map fun q => (q.1, F q.2)) k = (s.get? k).map F := by
  induction s with
  | nil => rfl
  | cons p s ih =>
    rw [List.map_cons, NS.get?_cons, NS.get?_cons, ih]
    split <;> rfl

/-- every state returned by `rk4_step` has the potential of its vorticity -/
theorem hwSolver_consistent (hw : HW) {s s' : NS (Cell ℝ)} {dt dx : ℝ} (h : (hwSolver hw).rk4_step s dt dx = .ok s') :
    ∃ o p, s'.get? "omega" = some o ∧ (hwSolver hw).get_phi o dx = .ok p ∧ s'.get? "phi" = some p := by
  unfold hwSolver at h
  simp only at h
  cases hr : hw.rk4_step (s.map fun q => (q.1, q.2.toVal)) dt dx {} with
  | error e => rw [hr] at h; cases h
  | ok r =>
    rw [hr, Py.ok_bind] at h
    injection h with h
    subst h
    obtain ⟨om, p, h1, h2, c1, c2, h3⟩ := rk4_phi hr
    refine ⟨.arr om, .arr p, ?_, ?_, ?_⟩
    · rw [get?_map, h1]; rfl
    · obtain ⟨c3, h4⟩ := get_phi_calls h3 {}
      unfold hwSolver
      simp only [Cell.toVal, Val.asArr, Py.ok_bind]
      rw [h4]; rfl
    · rw [get?_map, h2]; rfl

end Verif
