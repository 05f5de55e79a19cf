import Verif.Props.Common
import Verif.Lemmas.HWField

/-!
# Vocabulary of the properties about time stepping
-/

set_option linter.unusedSectionVars false

namespace Verif.Props

open Arr NS Spec

/-- one call of a time stepper -/
inductive Step where
  | rk4 (dt : ℝ)
  | euler (dt : ℝ)

/-- its time increment -/
def Step.dt : Step → ℝ
  | .rk4 dt => dt
  | .euler dt => dt

/-- `plasma = hw.rk4_step(plasma, dt=dt, dx=dx)` or `hw.euler_step(…)` -/
noncomputable def Step.run (hw : HW) (dx : ℝ) : Step → NS Val → M (NS Val)
  | .rk4 dt, s => hw.rk4_step s dt dx
  | .euler dt, s => hw.euler_step s dt dx

/-- any sequence of steps, each starting from the state returned by the previous one -/
noncomputable def history (hw : HW) (dx : ℝ) : List Step → NS Val → M (NS Val)
  | [], s => pure s
  | a :: l, s => do
    let s ← a.run hw dx s
    history hw dx l s

/-- `s[k]` as an array (only used where the entry is known to be one) -/
def arrOf (s : NS Val) (k : String) : Arr ℝ := match s.get? k with
  | some (.arr a) => a
  | _ => tab 0 0 fun _ _ => 0

/-- `s[k]` as a number (only used where the entry is known to be one) -/
def numOf (s : NS Val) (k : String) : ℝ := match s.get? k with
  | some (.num x) => x
  | _ => 0

/-- mean of an array (independent of the model of `np.mean`) -/
noncomputable def amean (a : Arr ℝ) : ℝ := Spec.mean a.h a.w a.at'

/-- `s` is a plasma state on an `h × w` grid: a dictionary with the arrays
`density`, `omega`, `phi` of that shape, the number `age`, possibly numbers
`dE` and `dU` if the conservation test is on, and nothing else. -/
structure IsState (test : Bool) (h w : ℕ) (s : NS Val) : Prop where
  nodup : s.keys.Nodup
  keys : ∀ k ∈ s.keys, k ∈ ["density", "omega", "phi", "age"] ∨ (test = true ∧ k ∈ ["dE", "dU"])
  density : ∃ a, s.get? "density" = some (.arr a) ∧ a.h = h ∧ a.w = w
  omega : ∃ a, s.get? "omega" = some (.arr a) ∧ a.h = h ∧ a.w = w
  phi : ∃ a, s.get? "phi" = some (.arr a) ∧ a.h = h ∧ a.w = w
  age : ∃ x, s.get? "age" = some (.num x)
  dE : ∀ v, s.get? "dE" = some v → ∃ x, v = .num x
  dU : ∀ v, s.get? "dU" = some v → ∃ x, v = .num x

/-- the potential stored in the state is the one `get_phi` computes from its vorticity -/
def Consistent (hw : HW) (dx : ℝ) (s : NS Val) : Prop :=
  ∀ c, ∃ c', hw.get_phi (arrOf s "omega") dx c = .ok (arrOf s "phi", c')

/-! ### reduction to torus fields -/

/-- samples of an array as a field on the torus -/
def toFld {h w : ℕ} (a : Arr ℝ) : Fld h w := fun i j => a.at' i.val j.val

variable {h w : ℕ} [NeZero h] [NeZero w]

theorem ofField_toFld {a : Arr ℝ} (hh : a.h = h) (hw : a.w = w) : ofField (toFld a : Fld h w) = a := by
  rw [eq_tab a]
  refine tab_congr hh.symm hw.symm fun i j hi hj => ?_
  unfold toFld
  rw [← eq_tab, ZMod.val_natCast, ZMod.val_natCast, Nat.mod_eq_of_lt hi, Nat.mod_eq_of_lt hj]

instance : Inhabited Val := ⟨.num 0⟩

theorem mem_keys_of_get? {s : NS Val} {k : String} {v : Val} (e : s.get? k = some v) : k ∈ s.keys := by
  induction s with
  | nil => simp [get?_nil] at e
  | cons p s ih =>
    rw [get?_cons] at e
    change k ∈ p.1 :: keys s
    by_cases h0 : p.1 = k
    · simp [h0]
    · rw [if_neg h0] at e
      exact List.mem_cons_of_mem _ (ih e)

theorem get?_of_mem_keys {s : NS Val} {k : String} (e : k ∈ s.keys) : ∃ v, s.get? k = some v := by
  induction s with
  | nil => simp [keys] at e
  | cons p s ih =>
    change k ∈ p.1 :: keys s at e
    rw [get?_cons]
    by_cases h0 : p.1 = k
    · exact ⟨p.2, by simp [h0]⟩
    · rw [if_neg h0]
      rcases List.mem_cons.mp e with e | e
      · exact absurd e.symm h0
      · exact ih e

theorem IsState.exists_mk {test : Bool} {s : NS Val} (hs : IsState test h w s) :
    ∃ (ks : List String) (t : Sta h w), GoodKeys ks test ∧ ks.Nodup ∧ s = NS.mk ks (st t) := by
  obtain ⟨n, en, n1, n2⟩ := hs.density
  obtain ⟨o, eo, o1, o2⟩ := hs.omega
  obtain ⟨p, ep, p1, p2⟩ := hs.phi
  obtain ⟨a, ea⟩ := hs.age
  refine ⟨s.keys, (toFld n, toFld o, toFld p, a, numOf s "dE", numOf s "dU"), ⟨?_, ?_, ?_, ?_, ?_⟩, hs.nodup, ?_⟩
  · intro k hk
    have := hs.keys k hk
    unfold gradKeys
    cases test <;> simp at this ⊢ <;> tauto
  · exact mem_keys_of_get? en
  · exact mem_keys_of_get? eo
  · exact mem_keys_of_get? ep
  · exact mem_keys_of_get? ea
  · conv_lhs => rw [eq_mk s hs.nodup]
    refine mk_congr fun k hk => ?_
    have := hs.keys k hk
    simp only [List.mem_cons, List.not_mem_nil, or_false] at this
    obtain (rfl | rfl | rfl | rfl) | ⟨-, rfl | rfl⟩ := this
    · rw [en, st_density, ofField_toFld n1 n2]; rfl
    · rw [eo, st_omega, ofField_toFld o1 o2]; rfl
    · rw [ep, st_phi, ofField_toFld p1 p2]; rfl
    · rw [ea, st_age]; rfl
    · obtain ⟨v, ev⟩ := get?_of_mem_keys hk
      obtain ⟨x, rfl⟩ := hs.dE v ev
      rw [st_dE]; simp only [numOf, ev, Option.getD_some]
    · obtain ⟨v, ev⟩ := get?_of_mem_keys hk
      obtain ⟨x, rfl⟩ := hs.dU v ev
      rw [st_dU]; simp only [numOf, ev, Option.getD_some]

theorem isState_mk {test : Bool} {ks : List String} (hk : GoodKeys ks test) (hn : ks.Nodup) (t : Sta h w) :
    IsState test h w (NS.mk ks (st t)) where
  nodup := by rw [keys_mk]; exact hn
  keys k hk' := by
    rw [keys_mk] at hk'
    have := hk.sub k hk'
    unfold gradKeys at this
    cases test <;> simp at this ⊢ <;> tauto
  density := ⟨ofField t.1, by rw [get?_mk, if_pos hk.density, st_density], rfl, rfl⟩
  omega := ⟨ofField t.2.1, by rw [get?_mk, if_pos hk.omega, st_omega], rfl, rfl⟩
  phi := ⟨ofField t.2.2.1, by rw [get?_mk, if_pos hk.phi, st_phi], rfl, rfl⟩
  age := ⟨t.2.2.2.1, by rw [get?_mk, if_pos hk.age, st_age]⟩
  dE v e := by
    rw [get?_mk] at e
    split at e
    · rw [st_dE] at e; exact ⟨_, (Option.some.inj e).symm⟩
    · cases e
  dU v e := by
    rw [get?_mk] at e
    split at e
    · rw [st_dU] at e; exact ⟨_, (Option.some.inj e).symm⟩
    · cases e

section access
variable {test : Bool} {ks : List String} (hk : GoodKeys ks test) (t : Sta h w)
include hk
theorem arrOf_density : arrOf (NS.mk ks (st t)) "density" = ofField t.1 := by
  unfold arrOf; rw [get?_mk, if_pos hk.density, st_density]
theorem arrOf_omega : arrOf (NS.mk ks (st t)) "omega" = ofField t.2.1 := by
  unfold arrOf; rw [get?_mk, if_pos hk.omega, st_omega]
theorem arrOf_phi : arrOf (NS.mk ks (st t)) "phi" = ofField t.2.2.1 := by
  unfold arrOf; rw [get?_mk, if_pos hk.phi, st_phi]
theorem numOf_age : numOf (NS.mk ks (st t)) "age" = t.2.2.2.1 := by
  unfold numOf; rw [get?_mk, if_pos hk.age, st_age]
end access

theorem amean_ofField (f : Fld h w) : amean (ofField f) = avg f := by
  unfold amean
  exact spec_mean_of (h := h) (w := w) fun i j hi hj => ofField_at' f hi hj

/-- the physical parameters of an `HW` object used with grid spacing `dx` -/
def parOf (hw : HW) (dx : ℝ) : Params :=
  ⟨dx, hw.N, hw.c1, (-1) ^ (hw.N + 1) * hw.nu, hw.poisson_bracket_coeff, hw.kappa_coeff, hw.zonal⟩

theorem eq_mkHW (hw : HW) (dx : ℝ) :
    hw = mkHW hw.backend (parOf hw dx) hw.dx hw.k0 hw.TEST_CONSERVATION := by
  unfold mkHW HW.init parOf
  have : (-1 : ℝ) ^ (hw.N + 1) * ((-1) ^ (hw.N + 1) * hw.nu) = hw.nu := by
    rw [← mul_assoc, ← mul_pow]; norm_num
  cases hw
  simp only [HW.mk.injEq, true_and, and_true]
  exact this.symm

/-- the field-level effect of a step -/
noncomputable def stepS (P : Params) (dx0 : ℝ) : Step → Sta h w → Sta h w
  | .rk4 dt, s => rk4S P dx0 dt s
  | .euler dt, s => eulerS P dx0 dt s.2.2.1 s

/-- the counters after a step -/
noncomputable def stepCalls (P : Params) (test : Bool) : Step → Calls → Calls
  | .rk4 _, c => rk4Calls P test c
  | .euler _, c => eulerCalls P test c

theorem step_mk (b : Backend) (hb : b.Good h w) (P : Params) (dx0 k0 : ℝ) (test : Bool)
    {ks : List String} (hk : GoodKeys ks test) (a : Step) (s : Sta h w) (c : Calls) :
    a.run (mkHW b P dx0 k0 test) P.dx (NS.mk ks (st s)) c
      = .ok (NS.mk (stepKeys ks) (st (stepS P dx0 a s)), stepCalls P test a c) := by
  cases a
  · exact rk4_step_mk b hb P dx0 k0 test hk s _ c
  · exact euler_step_mk b hb P dx0 k0 test hk s _ c

theorem nodup_stepKeys {ks : List String} (hn : ks.Nodup) : (stepKeys ks).Nodup := by
  unfold stepKeys
  rw [List.nodup_append]
  refine ⟨hn.filter _, by simp, ?_⟩
  intro a ha b hb
  simp at ha hb
  rw [hb]; exact ha.2

/-- the field-level effect of a history -/
noncomputable def histS (P : Params) (dx0 : ℝ) : List Step → Sta h w → Sta h w
  | [], s => s
  | a :: l, s => histS P dx0 l (stepS P dx0 a s)

/-- keys after a history -/
def histKeys : List Step → List String → List String
  | [], ks => ks
  | _ :: l, ks => histKeys l (stepKeys ks)

/-- counters after a history -/
noncomputable def histCalls (P : Params) (test : Bool) : List Step → Calls → Calls
  | [], c => c
  | a :: l, c => histCalls P test l (stepCalls P test a c)

theorem goodKeys_hist {test : Bool} (l : List Step) {ks : List String} (hk : GoodKeys ks test) :
    GoodKeys (histKeys l ks) test := by
  induction l generalizing ks with
  | nil => exact hk
  | cons a l ih => exact ih hk.step

theorem nodup_hist (l : List Step) {ks : List String} (hk : ks.Nodup) : (histKeys l ks).Nodup := by
  induction l generalizing ks with
  | nil => exact hk
  | cons a l ih => exact ih (nodup_stepKeys hk)

theorem history_mk (b : Backend) (hb : b.Good h w) (P : Params) (dx0 k0 : ℝ) (test : Bool)
    {ks : List String} (hk : GoodKeys ks test) (l : List Step) (s : Sta h w) (c : Calls) :
    history (mkHW b P dx0 k0 test) P.dx l (NS.mk ks (st s)) c
      = .ok (NS.mk (histKeys l ks) (st (histS P dx0 l s)), histCalls P test l c) := by
  induction l generalizing ks s c with
  | nil => rfl
  | cons a l ih =>
    unfold history
    rw [M.bind_apply, step_mk b hb P dx0 k0 test hk, Py.ok_bind, ih hk.step]
    rfl

/-- evaluation of a history of an arbitrary `HW` object -/
theorem history_eval (hw' : HW) (dx : ℝ) (hb : hw'.backend.Good h w)
    {ks : List String} (hk : GoodKeys ks hw'.TEST_CONSERVATION) (l : List Step) (s : Sta h w) (c : Calls) :
    history hw' dx l (NS.mk ks (st s)) c
      = .ok (NS.mk (histKeys l ks) (st (histS (parOf hw' dx) hw'.dx l s)),
          histCalls (parOf hw' dx) hw'.TEST_CONSERVATION l c) := by
  have := history_mk hw'.backend hb (parOf hw' dx) hw'.dx hw'.k0 hw'.TEST_CONSERVATION hk l s c
  rwa [← eq_mkHW] at this

theorem consistent_mk (hw' : HW) (hb : hw'.backend.Good h w) (dx : ℝ) {test : Bool} {ks : List String}
    (hk : GoodKeys ks test) (s : Sta h w) :
    Consistent hw' dx (NS.mk ks (st s)) ↔ s.2.2.1 = phiF dx s.2.1 := by
  unfold Consistent
  rw [arrOf_omega hk, arrOf_phi hk]
  constructor
  · intro H
    obtain ⟨c', e⟩ := H {}
    rw [get_phi_ofField hw' hb] at e
    injection e with e
    injection e with e _
    exact (ofField_inj e).symm
  · intro e c
    rw [e]
    exact ⟨_, get_phi_ofField hw' hb _ _ c⟩

theorem stepS_phi (P : Params) (dx0 : ℝ) (a : Step) (s : Sta h w) :
    (stepS P dx0 a s).2.2.1 = phiF P.dx (stepS P dx0 a s).2.1 := by
  cases a <;> rfl

theorem stepS_age (P : Params) (dx0 : ℝ) (a : Step) (s : Sta h w) :
    (stepS P dx0 a s).2.2.2.1 = s.2.2.2.1 + a.dt := by
  cases a <;> rfl

/-- evaluation of `gradient_2d` on a dictionary with the required entries -/
theorem gradient_2d_fields (hw' : HW) (hb : hw'.backend.Good h w) (dx dt : ℝ) (y : NS Val)
    (hres : ∀ k ∈ y.keys, k ∉ reservedNames) (n o p : Fld h w)
    (hn : y.get? "density" = some (.arr (ofField n))) (ho : y.get? "omega" = some (.arr (ofField o)))
    (hage : y.get? "age" = none ∨ ∃ a, y.get? "age" = some (.num a)) (c : Calls) :
    ∃ g c', hw'.gradient_2d y (some (.arr (ofField p))) dt dx hw'.zonal c = .ok (g, c') ∧
      g.get? "density" = some (.arr (ofField (rhsN (parOf hw' dx) n p))) ∧
      g.get? "omega" = some (.arr (ofField (rhsO (parOf hw' dx) n o p))) ∧
      (y.get? "age" = none → g.get? "age" = none) ∧
      (∀ a, y.get? "age" = some (.num a) → g.get? "age" = some (.num (a + dt))) ∧
      (hw'.TEST_CONSERVATION = true →
        g.get? "dE" = some (.num (repE (parOf hw' dx) hw'.dx n p)) ∧
        g.get? "dU" = some (.num (repU (parOf hw' dx) hw'.dx n o p))) := by
  have hr : y.keys.any (· ∈ reservedNames) = false := by
    rw [List.any_eq_false]; intro k hk; simpa using hres k hk
  rcases hage with hage | ⟨a, hage⟩
  · have e := hw2d_gradient_noage hw'.backend hb (parOf hw' dx) hw'.dx hw'.k0 hw'.TEST_CONSERVATION n o p dt c
    rw [← eq_mkHW] at e
    refine ⟨_, _, by rw [gradient_2d_eval hw' y _ _ _ _ dt dx _ hr hn ho hage]; exact e, ?_, ?_, ?_, ?_, ?_⟩
    · rw [get?_mk, if_pos (by unfold gradKeys; simp), st_density]; rfl
    · rw [get?_mk, if_pos (by unfold gradKeys; simp), st_omega]; rfl
    · intro _; rw [get?_mk, if_neg (by simp)]
    · intro a ha; rw [hage] at ha; cases ha
    · intro ht
      rw [get?_mk, if_pos (by simp [gradKeys, ht]), st_dE, get?_mk, if_pos (by simp [gradKeys, ht]), st_dU]
      exact ⟨rfl, rfl⟩
  · have e := hw2d_gradient_ofField hw'.backend hb (parOf hw' dx) hw'.dx hw'.k0 hw'.TEST_CONSERVATION n o p a dt c
    rw [← eq_mkHW] at e
    refine ⟨_, _, by rw [gradient_2d_eval hw' y _ _ _ _ dt dx _ hr hn ho hage]; exact e, ?_, ?_, ?_, ?_, ?_⟩
    · rw [get?_mk, if_pos (by unfold gradKeys; simp), st_density]; rfl
    · rw [get?_mk, if_pos (by unfold gradKeys; simp), st_omega]; rfl
    · intro ha; rw [hage] at ha; cases ha
    · intro a' ha
      rw [hage] at ha
      injection ha with ha; injection ha with ha
      rw [get?_mk, if_pos (by unfold gradKeys; simp), st_age, ← ha]; rfl
    · intro ht
      rw [get?_mk, if_pos (by simp [gradKeys, ht]), st_dE, get?_mk, if_pos (by simp [gradKeys, ht]), st_dU]
      exact ⟨rfl, rfl⟩

theorem hyper_parOf (hw' : HW) (dx : ℝ) (f : Fld h w) (i : ZMod h) (j : ZMod w) :
    hyper (parOf hw' dx) f i j = hw'.nu * ((lap dx)^[hw'.N] f) i j := by
  unfold hyper parOf
  simp only
  rw [← mul_assoc, ← mul_pow]; norm_num

end Verif.Props
