import Verif.Props.HWCommon
import Verif.Props.HWHistory

/-!
# Property theorems C35, C38: dictionaries of entries
-/

set_option linter.unusedSectionVars false

namespace Verif.Props

open Arr NS Spec

/-! ## C38 -/

section general

variable {V : Type}

/-- `res` is the entry-wise combination `op a[k] b[k]` over the keys of `a`; a
key of `a` missing in `b` is a `KeyError` -/
structure EntryWise (op : V → V → Py V) (a b : NS V) (res : Py (NS V)) : Prop where
  keys : ∀ r, res = .ok r → r.keys = a.keys
  entry : ∀ r, res = .ok r → ∀ k va, a.get? k = some va →
    ∃ vb vr, b.get? k = some vb ∧ op va vb = .ok vr ∧ r.get? k = some vr
  total : (∀ k va, (k, va) ∈ a → ∃ vb vr, b.get? k = some vb ∧ op va vb = .ok vr) → ∃ r, res = .ok r
  missing : (∀ k va vb, (k, va) ∈ a → b.get? k = some vb → ∃ vr, op va vb = .ok vr) →
    (∃ k ∈ a.keys, b.get? k = none) → ∃ k ∈ a.keys, b.get? k = none ∧ res = .error (.keyError k)

theorem entryWise_zipWith (op : V → V → Py V) (a b : NS V) :
    EntryWise (fun x y => op y x) a b (zipWith op a b) := by
  induction a with
  | nil =>
    refine ⟨?_, ?_, ?_, ?_⟩
    · rintro r e; injection e with e; subst e; rfl
    · rintro r e k va hk; simp [get?_nil] at hk
    · intro _; exact ⟨[], rfl⟩
    · rintro _ ⟨k, hk, _⟩; simp [NS.keys] at hk
  | cons p a ih =>
    obtain ⟨k0, v0⟩ := p
    obtain ⟨i1, i2, i3, i4⟩ := ih
    have hkeys : ∀ k, k ∈ NS.keys ((k0, v0) :: a) ↔ k = k0 ∨ k ∈ NS.keys a := fun k => List.mem_cons
    cases hb : b.get? k0 with
    | none =>
      have e0 : zipWith op ((k0, v0) :: a) b = .error (.keyError k0) := by
        unfold zipWith getItem; rw [hb]; rfl
      rw [e0]
      refine ⟨?_, ?_, ?_, ?_⟩
      · rintro r ⟨⟩
      · rintro r ⟨⟩
      · intro H
        obtain ⟨vb, _, e, _⟩ := H k0 v0 (by simp)
        rw [hb] at e; cases e
      · intro _ _; exact ⟨k0, by simp [NS.keys], hb, rfl⟩
    | some u =>
      have eu : b.getItem k0 = .ok u := by unfold getItem; rw [hb]
      cases ho : op u v0 with
      | error err =>
        have e0 : zipWith op ((k0, v0) :: a) b = .error err := by
          unfold zipWith; rw [eu, Py.ok_bind, ho]; rfl
        rw [e0]
        refine ⟨?_, ?_, ?_, ?_⟩
        · rintro r ⟨⟩
        · rintro r ⟨⟩
        · intro H
          obtain ⟨vb, vr, e, e'⟩ := H k0 v0 (by simp)
          rw [hb] at e; injection e with e; subst e
          simp only [ho] at e'; cases e'
        · intro H _
          obtain ⟨vr, e'⟩ := H k0 v0 u (by simp) hb
          simp only [ho] at e'; cases e'
      | ok v =>
        have e0 : zipWith op ((k0, v0) :: a) b = (zipWith op a b).bind fun rs => .ok ((k0, v) :: rs) := by
          conv_lhs => unfold zipWith
          rw [eu, Py.ok_bind, ho, Py.ok_bind]; rfl
        rw [e0]
        cases hr : zipWith op a b with
        | error err =>
          refine ⟨?_, ?_, ?_, ?_⟩
          · rintro r ⟨⟩
          · rintro r ⟨⟩
          · intro H
            obtain ⟨r, e⟩ := i3 fun k va hk => H k va (by simp [hk])
            rw [hr] at e; cases e
          · intro H ⟨k, hk, hk'⟩
            rw [hkeys] at hk
            rcases hk with rfl | hk
            · rw [hb] at hk'; cases hk'
            · obtain ⟨k', h1, h2, h3⟩ := i4 (fun k va vb hk => H k va vb (by simp [hk])) ⟨k, hk, hk'⟩
              rw [hr] at h3
              exact ⟨k', by rw [hkeys]; exact .inr h1, h2, h3⟩
        | ok rs =>
          refine ⟨?_, ?_, ?_, ?_⟩
          · rintro r e
            injection e with e; subst e
            change k0 :: NS.keys rs = k0 :: NS.keys a
            rw [i1 rs hr]
          · rintro r e k va hk
            injection e with e; subst e
            rw [get?_cons] at hk
            rw [get?_cons]
            simp only at hk ⊢
            by_cases h0 : k0 = k
            · rw [if_pos h0] at hk
              injection hk with hk; subst hk; subst h0
              exact ⟨u, v, hb, ho, by rw [if_pos rfl]⟩
            · rw [if_neg h0] at hk ⊢
              exact i2 rs hr k va hk
          · intro _; exact ⟨_, rfl⟩
          · intro H ⟨k, hk, hk'⟩
            rw [hkeys] at hk
            rcases hk with rfl | hk
            · rw [hb] at hk'; cases hk'
            · obtain ⟨k', h1, h2, h3⟩ := i4 (fun k va vb hk => H k va vb (by simp [hk])) ⟨k, hk, hk'⟩
              rw [hr] at h3; cases h3

theorem EntryWise.congr {op op' : V → V → Py V} {a b : NS V} {res : Py (NS V)} (h : ∀ x y, op x y = op' x y)
    (e : EntryWise op a b res) : EntryWise op' a b res := by
  have : op = op' := funext fun x => funext fun y => h x y
  exact this ▸ e

/-- `res` is the entry-wise combination `op a[k] v` with the number `v` -/
structure EntryWiseScalar (op : V → V → Py V) (a : NS V) (v : V) (res : Py (NS V)) : Prop where
  keys : ∀ r, res = .ok r → r.keys = a.keys
  entry : ∀ r, res = .ok r → ∀ k va, a.get? k = some va → ∃ vr, op va v = .ok vr ∧ r.get? k = some vr
  total : (∀ k va, (k, va) ∈ a → ∃ vr, op va v = .ok vr) → ∃ r, res = .ok r

theorem entryWise_mapWith (op : V → V → Py V) (a : NS V) (v : V) :
    EntryWiseScalar (fun x y => op y x) a v (mapWith op a v) := by
  induction a with
  | nil =>
    refine ⟨?_, ?_, ?_⟩
    · rintro r e; injection e with e; subst e; rfl
    · rintro r e k va hk; simp [get?_nil] at hk
    · intro _; exact ⟨[], rfl⟩
  | cons p a ih =>
    obtain ⟨k0, v0⟩ := p
    obtain ⟨i1, i2, i3⟩ := ih
    cases ho : op v v0 with
    | error err =>
      have e0 : mapWith op ((k0, v0) :: a) v = .error err := by
        unfold mapWith; rw [ho]; rfl
      rw [e0]
      refine ⟨by rintro r ⟨⟩, by rintro r ⟨⟩, ?_⟩
      intro H
      obtain ⟨vr, e'⟩ := H k0 v0 (by simp)
      simp only [ho] at e'; cases e'
    | ok u =>
      have e0 : mapWith op ((k0, v0) :: a) v = (mapWith op a v).bind fun rs => .ok ((k0, u) :: rs) := by
        conv_lhs => unfold mapWith
        rw [ho, Py.ok_bind]; rfl
      rw [e0]
      cases hr : mapWith op a v with
      | error err =>
        refine ⟨by rintro r ⟨⟩, by rintro r ⟨⟩, ?_⟩
        intro H
        obtain ⟨r, e⟩ := i3 fun k va hk => H k va (by simp [hk])
        rw [hr] at e; cases e
      | ok rs =>
        refine ⟨?_, ?_, fun _ => ⟨_, rfl⟩⟩
        · rintro r e
          injection e with e; subst e
          change k0 :: NS.keys rs = k0 :: NS.keys a
          rw [i1 rs hr]
        · rintro r e k va hk
          injection e with e; subst e
          rw [get?_cons] at hk
          rw [get?_cons]
          simp only at hk ⊢
          by_cases h0 : k0 = k
          · rw [if_pos h0] at hk
            injection hk with hk; subst hk
            exact ⟨u, ho, by rw [if_pos h0]⟩
          · rw [if_neg h0] at hk ⊢
            exact i2 rs hr k va hk

/-- **C38 (all operators but subtraction).** For every entry type whose addition
and multiplication commute (numbers, arrays: `val_add_comm`, `val_mul_comm`),
`a + b`, `a * b`, `a / b` combine equal keys entry-wise, with another
`Namespace` or with a plain value.  Missing: `a - b`, refuted below. -/
theorem C38_entrywise_partial [Ops V] (ha : ∀ x y : V, Ops.add x y = Ops.add y x)
    (hm : ∀ x y : V, Ops.mul x y = Ops.mul y x) (a b : NS V) (v : V) :
    EntryWise Ops.add a b (a.add (.ns b)) ∧ EntryWise Ops.mul a b (a.mul (.ns b)) ∧
    EntryWise Ops.div a b (a.truediv (.ns b)) ∧
    EntryWiseScalar Ops.add a v (a.add (.scalar v)) ∧ EntryWiseScalar Ops.mul a v (a.mul (.scalar v)) ∧
    EntryWiseScalar Ops.div a v (a.truediv (.scalar v)) := by
  have e1 : (Ops.add : V → V → Py V) = fun x y => Ops.add y x := funext fun x => funext fun y => ha x y
  have e2 : (Ops.mul : V → V → Py V) = fun x y => Ops.mul y x := funext fun x => funext fun y => hm x y
  refine ⟨?_, ?_, ?_, ?_, ?_, ?_⟩
  · rw [e1]; exact entryWise_zipWith _ a b
  · rw [e2]; exact entryWise_zipWith _ a b
  · exact entryWise_zipWith (fun o v => Ops.div v o) a b
  · rw [e1]; exact entryWise_mapWith _ a v
  · rw [e2]; exact entryWise_mapWith _ a v
  · exact entryWise_mapWith (fun o v => Ops.div v o) a v

/-- **C38 is violated by subtraction**: for every pair of dictionaries `a - b`
computes `b[k] - a[k]`. -/
theorem C38_subtraction_violated [Ops V] (a b : NS V) (v : V) :
    EntryWise (fun x y => Ops.sub y x) a b (a.sub (.ns b)) ∧
    EntryWiseScalar (fun x y => Ops.sub y x) a v (a.sub (.scalar v)) :=
  ⟨entryWise_zipWith Ops.sub a b, entryWise_mapWith Ops.sub a v⟩

/-- **C38 is violated by the division of a plain value by a dictionary**: `v / a` raises
`TypeError` for every `v` and `a`, even where all entries can be divided (the method
that computes it has the name of a Python 2 hook). -/
theorem C38_division_violated [Ops V] (a : NS V) (v : V) : a.rtruediv v = .error .typeError :=
  rfl

end general

theorem bdim_comm (a b : ℕ) : bdim a b = bdim b a := by
  unfold bdim; repeat' split
  all_goals simp_all

theorem val_lift_comm {f : ℝ → ℝ → ℝ} (hf : ∀ x y, f x y = f y x) (u v : Val) : Val.lift f u v = Val.lift f v u := by
  have e : ∀ x, (fun y => f x y) = fun y => f y x := fun x => funext fun y => hf x y
  cases u <;> cases v
  · rename_i a b
    change (do return Val.arr (← Arr.zip f a b)) = (do return Val.arr (← Arr.zip f b a))
    unfold Arr.zip
    rw [bdim_comm b.h, bdim_comm b.w]
    cases bdim a.h b.h <;> cases bdim a.w b.w <;> simp only
    congr 4
    funext i j; exact hf _ _
  · rename_i a y
    change Except.ok (Val.arr (a.map fun x => f x y)) = .ok (.arr (a.map fun x => f y x))
    rw [e y]
  · rename_i y a
    change Except.ok (Val.arr (a.map fun x => f y x)) = .ok (.arr (a.map fun x => f x y))
    rw [e y]
  · rename_i x y
    change Except.ok (Val.num (f x y)) = .ok (.num (f y x))
    rw [hf]

theorem val_add_comm (u v : Val) : (Ops.add u v : Py Val) = Ops.add v u := val_lift_comm add_comm u v
theorem val_mul_comm (u v : Val) : (Ops.mul u v : Py Val) = Ops.mul v u := val_lift_comm mul_comm u v

example := C38_division_violated demoState (.num 3)

example := C38_entrywise_partial val_add_comm val_mul_comm demoState [("density", .num 2)] (.num 3)

/-- the violation is visible: `{x: 5} - {x: 3}` is `{x: -2}`, not `{x: 2}` -/
example : NS.sub [("x", Val.num 5)] (.ns [("x", .num 3)]) = .ok [("x", .num (3 - 5))] ∧
    NS.sub [("x", Val.num 5)] (.ns [("x", .num 3)]) ≠ .ok [("x", .num (5 - 3))] := by
  have e : NS.sub [("x", Val.num 5)] (.ns [("x", .num 3)]) = .ok [("x", .num (3 - 5))] := rfl
  refine ⟨e, ?_⟩
  rw [e]
  intro H
  injection H with H
  injection H with H _
  injection H with _ H
  injection H with H
  norm_num at H

/-! ## C35 -/

/-- **C35 (missing `phi`).** -/
theorem C35_missing_phi (hw : HW) (s : NS Val) (dt dx : ℝ) (c : Calls) (hp : s.get? "phi" = none) :
    hw.rk4_step s dt dx c = .error (.keyError "phi") := by
  have e : s.getItem "phi" = .error (.keyError "phi") := by unfold getItem; rw [hp]
  simp -implicitDefEqProofs only [HW.rk4_step, e, M.bind_apply, M.lift_error]
  rfl

example (hw : HW) := C35_missing_phi hw [("density", .num 0)] 1 1 {} rfl

/-- **C35 (entries named like an argument).** A state with an entry that has the name of one of the arguments makes
both steppers raise `TypeError`, and so does `gradient_2d` if it is given the potential twice. -/
theorem C35_argument_name (hw : HW) (s : NS Val) (dt dx : ℝ) (c : Calls) :
    (∀ k ∈ ["self", "dt", "dx", "zonal", "get_phi_func", "gradient_func", "diffuse_func", "poisson_bracket_func",
        "get_gammas_func", "make_zonal_func", "log", "poisson_bracket_coeff", "kappa_coeff", "c1", "nu", "N",
        "TEST_CONSERVATION"], k ∈ s.keys →
      hw.euler_step s dt dx c = .error .typeError ∧
        (∀ p, s.get? "phi" = some p → hw.rk4_step s dt dx c = .error .typeError)) ∧
    ("phi" ∈ s.keys → ∀ p z, hw.gradient_2d s (some p) dt dx z c = .error .typeError) := by
  have key : ∀ (y : NS Val) (p : Option Val) (t : ℝ) (z : Bool), (∃ k ∈ y.keys, k ∈ reservedNames) →
      hw.gradient_2d y p t dx z c = .error .typeError := by
    intro y p t z ⟨k, h1, h2⟩
    have : y.keys.any (· ∈ reservedNames) = true := List.any_eq_true.2 ⟨k, h1, by simpa using h2⟩
    unfold HW.gradient_2d
    rw [if_pos this]
    rfl
  refine ⟨fun k hk hs => ?_, fun hp p z => key s _ _ z ⟨"phi", hp, by simp [reservedNames]⟩⟩
  have hr : k ∈ reservedNames := by
    simp only [List.mem_cons, List.not_mem_nil, or_false] at hk
    simp only [reservedNames, List.mem_cons, List.not_mem_nil, or_false]
    tauto
  have hne : k ≠ "phi" := by
    rintro rfl
    simp at hk
  have hw' : ∃ k ∈ (s.without "phi").keys, k ∈ reservedNames := by
    refine ⟨k, ?_, hr⟩
    unfold NS.keys at hs ⊢
    obtain ⟨q, hq, rfl⟩ := List.mem_map.1 hs
    exact List.mem_map.2 ⟨q, List.mem_filter.2 ⟨hq, by simpa using hne⟩, rfl⟩
  constructor
  · unfold HW.euler_step
    simp -implicitDefEqProofs only [M.bind_apply, key _ _ _ _ hw']
    rfl
  · intro p hp
    have e : s.getItem "phi" = .ok p := by unfold getItem; rw [hp]
    unfold HW.rk4_step
    simp -implicitDefEqProofs only [M.bind_apply, e, M.lift_ok, Py.ok_bind, key _ _ _ _ hw']
    rfl

example (hw : HW) := (C35_argument_name hw [("phi", .num 0), ("dx", .num 1)] 1 1 {}).1 "dx" (by simp) (by simp [NS.keys])

variable {h w : ℕ}

/-- the three fields of a state, on one grid -/
structure HasFields (h w : ℕ) (s : NS Val) : Prop where
  nodup : s.keys.Nodup
  density : ∃ a, s.get? "density" = some (.arr a) ∧ a.h = h ∧ a.w = w
  omega : ∃ a, s.get? "omega" = some (.arr a) ∧ a.h = h ∧ a.w = w
  phi : ∃ a, s.get? "phi" = some (.arr a) ∧ a.h = h ∧ a.w = w

/-- the keys `gradient_2d` can produce besides `age` -/
def Produced (test : Bool) (k : String) : Prop :=
  k = "density" ∨ k = "omega" ∨ (test = true ∧ (k = "dE" ∨ k = "dU"))

/-- **C35 (missing `age`).** A state that is complete except for `age` makes both
steppers raise `KeyError('age')`. -/
theorem C35_missing_age (hw : HW) (dx : ℝ) (h0 : 0 < h) (w0 : 0 < w) (hb : Std hw.backend h w) (s : NS Val)
    (hs : HasFields h w s) (hk : ∀ k ∈ s.keys, k = "phi" ∨ Produced hw.TEST_CONSERVATION k)
    (hE : ∀ k ∈ ["dE", "dU"], ∀ v, s.get? k = some v → ∃ x, v = .num x) (dt : ℝ) (c : Calls) :
    hw.rk4_step s dt dx c = .error (.keyError "age") ∧ hw.euler_step s dt dx c = .error (.keyError "age") := by
  have : NeZero h := ⟨h0.ne'⟩
  have : NeZero w := ⟨w0.ne'⟩
  obtain ⟨n, en, n1, n2⟩ := hs.density
  obtain ⟨o, eo, o1, o2⟩ := hs.omega
  obtain ⟨p, ep, p1, p2⟩ := hs.phi
  have hmk : s = NS.mk s.keys (st ((toFld n, toFld o, toFld p, 0, numOf s "dE", numOf s "dU") : Sta h w)) := by
    conv_lhs => rw [eq_mk s hs.nodup]
    refine mk_congr fun k hk' => ?_
    have := hk k hk'
    unfold Produced at this
    obtain rfl | rfl | rfl | ⟨-, rfl | rfl⟩ := this
    · rw [ep, st_phi, ofField_toFld p1 p2]; rfl
    · rw [en, st_density, ofField_toFld n1 n2]; rfl
    · rw [eo, st_omega, ofField_toFld o1 o2]; rfl
    · obtain ⟨v, ev⟩ := get?_of_mem_keys hk'
      obtain ⟨x, rfl⟩ := hE _ (by simp) v ev
      rw [st_dE]; simp only [numOf, ev, Option.getD_some]
    · obtain ⟨v, ev⟩ := get?_of_mem_keys hk'
      obtain ⟨x, rfl⟩ := hE _ (by simp) v ev
      rw [st_dU]; simp only [numOf, ev, Option.getD_some]
  have hsub : ∀ k ∈ s.keys, k = "phi" ∨ k ∈ (gradKeys hw.TEST_CONSERVATION).filter (· ≠ "age") := by
    intro k hk'
    have := hk k hk'
    unfold Produced at this
    obtain rfl | rfl | rfl | ⟨ht, rfl | rfl⟩ := this
    · left; rfl
    · right; simp [gradKeys]
    · right; simp [gradKeys]
    · right; simp [gradKeys, ht]
    · right; simp [gradKeys, ht]
  have e1 := rk4_step_noage hw.backend hb.good (parOf hw dx) hw.dx hw.k0 hw.TEST_CONSERVATION hsub
    (mem_keys_of_get? en) (mem_keys_of_get? eo) (mem_keys_of_get? ep)
    ((toFld n, toFld o, toFld p, 0, numOf s "dE", numOf s "dU") : Sta h w) dt c
  have e2 := euler_step_noage hw.backend hb.good (parOf hw dx) hw.dx hw.k0 hw.TEST_CONSERVATION hsub
    (mem_keys_of_get? en) (mem_keys_of_get? eo) (mem_keys_of_get? ep)
    ((toFld n, toFld o, toFld p, 0, numOf s "dE", numOf s "dU") : Sta h w) dt c
  rw [← eq_mkHW, ← hmk] at e1 e2
  exact ⟨e1, e2⟩

example := C35_missing_age (h := 4) (w := 5) (HW.init numpyBackend 1 3 1 (1 / 10) 1) 1 (by decide) (by decide)
  (.inl rfl) (demoState.without "age")
  { nodup := by
      rw [show (demoState.without "age").keys = ["density", "omega", "phi", "dE"] from rfl]; decide
    density := ⟨_, rfl, rfl, rfl⟩, omega := ⟨_, rfl, rfl, rfl⟩, phi := ⟨_, rfl, rfl, rfl⟩ }
  (by
    intro k hk
    rw [show (demoState.without "age").keys = ["density", "omega", "phi", "dE"] from rfl] at hk
    rw [show (HW.init numpyBackend 1 3 1 (1 / 10) 1).TEST_CONSERVATION = true from rfl]
    simp only [List.mem_cons, List.not_mem_nil, or_false] at hk
    unfold Produced
    tauto)
  (by
    intro k hk v hv
    simp only [List.mem_cons, List.not_mem_nil, or_false] at hk
    rcases hk with rfl | rfl
    · rw [show (demoState.without "age").get? "dE" = some (.num 0) from rfl] at hv
      exact ⟨0, (Option.some.inj hv).symm⟩
    · rw [show (demoState.without "age").get? "dU" = none from rfl] at hv; cases hv) (1 / 10) {}

/-- **C35 (foreign entries).** A state that is complete but also has an entry
that `gradient_2d` does not produce (and that is not one of its own keyword
names, for which Python raises `TypeError`) makes both steppers raise `KeyError`
for such an entry. -/
theorem C35_foreign_entry (hw : HW) (dx : ℝ) (h0 : 0 < h) (w0 : 0 < w) (hb : Std hw.backend h w) (s : NS Val)
    (hs : HasFields h w s) (hage : ∃ x, s.get? "age" = some (.num x))
    (hres : ∀ k ∈ s.keys, k ≠ "phi" → k ∉ reservedNames)
    (hE : ∀ k ∈ ["dE", "dU"], ∀ v, s.get? k = some v → ∃ x, v = .num x)
    (hx : ∃ k ∈ s.keys, k ≠ "phi" ∧ k ≠ "age" ∧ ¬Produced hw.TEST_CONSERVATION k) (dt : ℝ) (c : Calls) :
    ∃ k ∈ s.keys, (k ≠ "phi" ∧ k ≠ "age" ∧ ¬Produced hw.TEST_CONSERVATION k) ∧
      hw.rk4_step s dt dx c = .error (.keyError k) ∧ hw.euler_step s dt dx c = .error (.keyError k) := by
  have : NeZero h := ⟨h0.ne'⟩
  have : NeZero w := ⟨w0.ne'⟩
  obtain ⟨n, en, n1, n2⟩ := hs.density
  obtain ⟨o, eo, o1, o2⟩ := hs.omega
  obtain ⟨p, ep, p1, p2⟩ := hs.phi
  obtain ⟨a, ea⟩ := hage
  set F : String → Val := fun k => (s.get? k).getD default with hF
  set t : Sta h w := (toFld n, toFld o, toFld p, a, numOf s "dE", numOf s "dU") with ht
  have hmk : s = NS.mk s.keys F := eq_mk s hs.nodup
  have hwo : s.without "phi" = NS.mk (s.keys.filter (· ≠ "phi")) F := by
    conv_lhs => rw [hmk]
    exact without_mk _ _ _
  have hprod : ∀ k, k ∈ gradKeys hw.TEST_CONSERVATION ↔ k = "age" ∨ Produced hw.TEST_CONSERVATION k := by
    intro k
    unfold gradKeys Produced
    cases hw.TEST_CONSERVATION <;> simp <;> tauto
  have hFt : ∀ k ∈ s.keys, k ∈ gradKeys hw.TEST_CONSERVATION → F k = st t k := by
    intro k hk' hg
    rw [hprod] at hg
    unfold Produced at hg
    simp only [hF]
    obtain rfl | rfl | rfl | ⟨-, rfl | rfl⟩ := hg
    · rw [ea, st_age]; rfl
    · rw [en, st_density, ofField_toFld n1 n2]; rfl
    · rw [eo, st_omega, ofField_toFld o1 o2]; rfl
    · obtain ⟨v, ev⟩ := get?_of_mem_keys hk'
      obtain ⟨x, rfl⟩ := hE _ (by simp) v ev
      rw [st_dE, ev]; simp only [ht, numOf, ev, Option.getD_some]
    · obtain ⟨v, ev⟩ := get?_of_mem_keys hk'
      obtain ⟨x, rfl⟩ := hE _ (by simp) v ev
      rw [st_dU, ev]; simp only [ht, numOf, ev, Option.getD_some]
  have hr : (s.without "phi").keys.any (· ∈ reservedNames) = false := by
    rw [hwo, keys_mk, List.any_eq_false]
    intro k hk
    rw [List.mem_filter] at hk
    simpa using hres k hk.1 (by simpa using hk.2)
  have hget : ∀ k, k ≠ "phi" → (s.without "phi").get? k = s.get? k := by
    intro k hk
    rw [hwo]
    conv_rhs => rw [hmk]
    rw [get?_mk, get?_mk]
    simp only [List.mem_filter]
    simp [hk]
  have hgrad : ∀ c dt, ∃ s' : Sta h w, ∃ c', hw.gradient_2d (s.without "phi") (some (.arr p)) dt dx hw.zonal c
      = .ok (NS.mk (gradKeys hw.TEST_CONSERVATION) (st s'), c') := by
    intro c dt
    have e := hw2d_gradient_ofField hw.backend hb.good (parOf hw dx) hw.dx hw.k0 hw.TEST_CONSERVATION
      (toFld n) (toFld o) (toFld p : Fld h w) a dt c
    rw [← eq_mkHW, ofField_toFld n1 n2, ofField_toFld o1 o2, ofField_toFld p1 p2] at e
    exact ⟨_, _, (congrFun (gradient_2d_eval hw _ n o p (some (.num a)) dt dx hw.zonal hr
      (by rw [hget _ (by decide), en]) (by rw [hget _ (by decide), eo]) (by rw [hget _ (by decide), ea])) c).trans e⟩
  have hmiss : ∀ u : Sta h w, ∃ k ∈ s.keys, (k ≠ "phi" ∧ k ∉ gradKeys hw.TEST_CONSERVATION) ∧
      (s.without "phi").add (.ns (NS.mk (gradKeys hw.TEST_CONSERVATION) (st u))) = .error (.keyError k) := by
    intro u
    have ew := entryWise_zipWith Ops.add (s.without "phi") (NS.mk (gradKeys hw.TEST_CONSERVATION) (st u))
    have hm := ew.missing ?_ ?_
    · obtain ⟨k, h1, h2, h3⟩ := hm
      rw [hwo, keys_mk, List.mem_filter] at h1
      refine ⟨k, h1.1, ⟨by simpa using h1.2, ?_⟩, h3⟩
      intro hg
      rw [get?_mk, if_pos hg] at h2; cases h2
    · intro k va vb hk hv
      rw [get?_mk] at hv
      split at hv
      · next hg =>
        injection hv with hv
        rw [hwo] at hk
        unfold NS.mk at hk
        rw [List.mem_map] at hk
        obtain ⟨k', hk', e⟩ := hk
        injection e with e1 e2
        subst e1
        rw [← e2, ← hv, hFt _ (List.mem_filter.mp hk').1 hg]
        exact ⟨_, st_add _ _ _⟩
      · cases hv
    · obtain ⟨k, h1, h2, h3, h4⟩ := hx
      refine ⟨k, ?_, ?_⟩
      · rw [hwo, keys_mk, List.mem_filter]; exact ⟨h1, by simpa using h2⟩
      · rw [get?_mk, if_neg]
        rw [hprod]; tauto
  have hpi : s.getItem "phi" = .ok (.arr p) := by unfold getItem; rw [ep]
  -- the first addition fails at the first foreign key, independently of the values
  have hkey : ∀ u v : Sta h w, ∀ k,
      (s.without "phi").add (.ns (NS.mk (gradKeys hw.TEST_CONSERVATION) (st u))) = .error (.keyError k) →
      (s.without "phi").add (.ns (NS.mk (gradKeys hw.TEST_CONSERVATION) (st v))) = .error (.keyError k) := by
    intro u v k
    rw [hwo]
    have hall : ∀ k ∈ s.keys.filter (· ≠ "phi"), k ∈ s.keys := fun k hk => (List.mem_filter.mp hk).1
    generalize s.keys.filter (· ≠ "phi") = ks at hall
    induction ks with
    | nil => intro e; cases e
    | cons k0 ks ih =>
      intro e
      change zipWith Ops.add ((k0, F k0) :: NS.mk ks F) _ = _ at e
      change zipWith Ops.add ((k0, F k0) :: NS.mk ks F) _ = _
      unfold zipWith at e ⊢
      by_cases hg : k0 ∈ gradKeys hw.TEST_CONSERVATION
      · rw [getItem_mk _ hg, Py.ok_bind, hFt k0 (hall k0 (by simp)) hg, st_add, Py.ok_bind] at e ⊢
        cases hz : zipWith Ops.add (NS.mk ks F) (NS.mk (gradKeys hw.TEST_CONSERVATION) (st u)) with
        | ok r => rw [hz] at e; cases e
        | error err =>
          rw [hz] at e
          injection e with e
          subst e
          have := ih (fun k hk => hall k (by simp [hk])) hz
          change zipWith Ops.add (NS.mk ks F) _ = _ at this
          rw [this]; rfl
      · rw [getItem_mk_of_not_mem _ hg] at e ⊢
        exact e
  obtain ⟨u0, c0, e0⟩ := hgrad c 0
  obtain ⟨k, h1, ⟨h2, h3⟩, h4⟩ := hmiss ((1 / 2 : ℝ) • dt • u0)
  refine ⟨k, h1, ⟨h2, ?_⟩, ?_, ?_⟩
  · rw [hprod] at h3; tauto
  · simp -implicitDefEqProofs only [HW.rk4_step, hpi, e0, M.bind_apply, M.lift_ok, Py.ok_bind, mul_st, h4,
      M.lift_error]
    rfl
  · have h5 := hkey _ (dt • u0) k h4
    simp -implicitDefEqProofs only [HW.euler_step, ep, e0, M.bind_apply, M.lift_ok, Py.ok_bind, mul_st, h5,
      M.lift_error]
    rfl

/-- **C35 (result keys).** A successful step returns exactly the input's keys. -/
theorem C35_result_keys (hw : HW) (dx : ℝ) (h0 : 0 < h) (w0 : 0 < w) (hb : Std hw.backend h w) (a : Step)
    (s : NS Val) (hs : IsState hw.TEST_CONSERVATION h w s) (c : Calls) :
    ∃ s' c', a.run hw dx s c = .ok (s', c') ∧ s'.keys.Nodup ∧ ∀ k, k ∈ s'.keys ↔ k ∈ s.keys := by
  have : NeZero h := ⟨h0.ne'⟩
  have : NeZero w := ⟨w0.ne'⟩
  obtain ⟨ks, t, hk, hn, rfl⟩ := hs.exists_mk
  have e := step_mk hw.backend hb.good (parOf hw dx) hw.dx hw.k0 hw.TEST_CONSERVATION hk a t c
  rw [← eq_mkHW] at e
  refine ⟨_, _, e, ?_, ?_⟩
  · rw [keys_mk]; exact nodup_stepKeys hn
  · intro k
    rw [keys_mk, keys_mk]
    unfold stepKeys
    rw [List.mem_append, List.mem_filter]
    by_cases hp : k = "phi"
    · subst hp; simp [hk.phi]
    · simp [hp]

example := C35_result_keys (HW.init numpyBackend 1 3 1 (1 / 10) 1) 1 (by decide) (by decide)
  (.inl rfl) (.euler (1 / 20)) demoState demoState_isState {}

theorem demo_hasFields (x : String) (v : Val) (hx : x ∉ demoState.keys) : HasFields 4 5 (demoState ++ [(x, v)]) where
  nodup := by
    have : (demoState ++ [(x, v)]).keys = demoState.keys ++ [x] := by simp [keys]
    rw [this, List.nodup_append]
    refine ⟨demoState_isState.nodup, by simp, ?_⟩
    intro a ha b hb
    simp at hb
    rw [hb]; exact fun e => hx (e ▸ ha)
  density := ⟨_, rfl, rfl, rfl⟩
  omega := ⟨_, rfl, rfl, rfl⟩
  phi := ⟨_, rfl, rfl, rfl⟩

example := C35_foreign_entry (h := 4) (w := 5) (HW.init numpyBackend 1 3 1 (1 / 10) 1) 1 (by decide) (by decide)
  (.inl rfl) (demoState ++ [("note", .num 1)]) (demo_hasFields "note" _ (by decide)) ⟨3, rfl⟩
  (by
    intro k hk hp
    have : (demoState ++ [("note", Val.num 1)]).keys = ["density", "omega", "phi", "age", "dE", "note"] := rfl
    rw [this] at hk
    simp only [List.mem_cons, List.not_mem_nil, or_false] at hk
    rcases hk with rfl | rfl | rfl | rfl | rfl | rfl <;> simp_all [reservedNames])
  (by
    intro k hk v hv
    simp only [List.mem_cons, List.not_mem_nil, or_false] at hk
    rcases hk with rfl | rfl
    · have : (demoState ++ [("note", Val.num 1)]).get? "dE" = some (.num 0) := rfl
      rw [this] at hv; exact ⟨0, (Option.some.inj hv).symm⟩
    · have : (demoState ++ [("note", Val.num 1)]).get? "dU" = none := rfl
      rw [this] at hv; cases hv)
  ⟨"note", by decide, by decide, by decide, by unfold Produced; decide⟩ (1 / 10) {}

/-- **C38 (copy).** `copy` has the same entries in the same order. -/
theorem C38_copy (ns : NS V) : ns.copy.keys = ns.keys ∧ ∀ k, ns.copy.get? k = ns.get? k := by
  have : ns.copy = ns := List.map_id _
  rw [this]
  exact ⟨rfl, fun _ => rfl⟩

example : (NS.copy [("a", 1), ("b", 2)]).get? "b" = some 2 := by rw [(C38_copy _).2]; rfl

end Verif.Props
