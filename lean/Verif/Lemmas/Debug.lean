import Verif.Model.Debug
import Verif.Lemmas.HWStep
import Verif.Spec.Debug

/-!
# The steps with debug printing, on torus fields
-/

set_option linter.unusedSectionVars false

namespace Verif.Debug

open Arr NS Spec

variable {α β : Type}

theorem D.bind_apply (x : D α) (f : α → D β) (s : Calls × List Line) : (x >>= f) s = (x s >>= fun r => f r.1 r.2) := rfl
theorem D.pure_apply (a : α) (s : Calls × List Line) : (pure a : D α) s = .ok (a, s) := rfl
theorem print_apply (l : Line) (s : Calls × List Line) : print l s = .ok ((), (s.1, s.2 ++ [l])) := rfl
theorem D.of_apply (x : M α) (s : Calls × List Line) : D.of x s = (x s.1).map fun r => (r.1, (r.2, s.2)) := rfl

theorem D.of_ok {x : M α} {s : Calls × List Line} {a : α} {c : Calls} (e : x s.1 = .ok (a, c)) :
    D.of x s = .ok (a, (c, s.2)) := by
  rw [D.of_apply, e]; rfl

theorem D.of_pure (a : α) : D.of (pure a : M α) = pure a := rfl

theorem D.of_bind (x : M α) (f : α → M β) : D.of (x >>= f) = D.of x >>= fun a => D.of (f a) := by
  funext s
  change ((x s.1 >>= fun r => f r.1 r.2).map _ : Except PyErr _) = ((x s.1).map _ >>= _)
  cases x s.1 <;> rfl

theorem map_bind_ok {x : Except PyErr (α × Calls)} {f : α → Calls → Except PyErr (β × Calls)} {out : List Line} {r : β × Calls}
    (h : (x >>= fun r => f r.1 r.2) = .ok r) :
    ((x.map fun r => (r.1, (r.2, out))) >>= fun r => (f r.1 r.2.1).map fun q => (q.1, (q.2, r.2.2))) = .ok (r.1, (r.2, out)) := by
  cases x with
  | error e => cases h
  | ok v =>
    change f v.1 v.2 = _ at h
    change (f v.1 v.2).map _ = _
    rw [h]; rfl

theorem addBracket_fst (hw : HW) (x phi psi : Arr ℝ) (dx : ℝ) :
    hw.addBracket x phi psi dx = addBracket hw x phi psi dx >>= fun r => pure r.1 := by
  unfold HW.addBracket addBracket
  split
  · simp only [bind_assoc, pure_bind, bind_pure]
  · rfl

theorem addKappa_fst (hw : HW) (x dy : Arr ℝ) :
    M.lift (hw.addKappa x dy) = M.lift (addKappa hw x dy) >>= fun r => pure r.1 := by
  unfold HW.addKappa addKappa
  split
  · cases h : iadd x (dy.map (-hw.kappa_coeff * ·)) <;> simp only [h] <;> rfl
  · rfl

/-- without `debug`, `hw2d_gradient` is the function of `Model/HW.lean` -/
theorem hw2d_gradient_off (hw : HW) (n o : Arr ℝ) (p : Option (Arr ℝ)) (a : Option Val) (dt dx : ℝ) (z : Bool) :
    hw2d_gradient hw n o p a dt dx z false = D.of (hw.hw2d_gradient n o p a dt dx z) := by
  unfold hw2d_gradient HW.hw2d_gradient printGradient
  simp only [D.of_bind, addBracket_fst, addKappa_fst, bind_assoc, pure_bind, Bool.false_eq_true, if_false]

theorem gradient_2d_off (hw : HW) (y : NS Val) (p : Option Val) (dt dx : ℝ) (z : Bool) :
    gradient_2d hw y p dt dx z false = D.of (hw.gradient_2d y p dt dx z) := by
  unfold gradient_2d HW.gradient_2d
  split
  · rfl
  · cases hd : y.get? "density" with
    | none => rfl
    | some d =>
      cases ho : y.get? "omega" with
      | none => rfl
      | some o => simp only [D.of_bind, hw2d_gradient_off]

theorem euler_step_of (hw : HW) (s : NS Val) (dt dx : ℝ) : euler_step hw s dt dx = D.of (hw.euler_step s dt dx) := by
  unfold euler_step HW.euler_step
  simp only [D.of_bind, gradient_2d_off, D.of_pure]

theorem rk4_step_off (hw : HW) (s : NS Val) (dt dx : ℝ) : rk4_step hw false s dt dx = D.of (hw.rk4_step s dt dx) := by
  unfold rk4_step HW.rk4_step printStep
  simp only [D.of_bind, gradient_2d_off, D.of_pure, Bool.false_eq_true, if_false, pure_bind]

section fields

variable {h w : ℕ} [NeZero h] [NeZero w]

/-- the value `v` of a term stands for the field `f` -/
def Rep (v : Val) (f : Fld h w) : Prop := v = .arr (ofField f) ∨ v = .num 0 ∧ ∀ i j, f i j = 0

theorem foldl_max_le {l : List ℝ} {a b : ℝ} : l.foldl max a ≤ b ↔ a ≤ b ∧ ∀ x ∈ l, x ≤ b := by
  induction l generalizing a with
  | nil => simp
  | cons y l ih => rw [List.foldl_cons, ih, max_le_iff]; simp [and_assoc]

theorem foldl_max_mem {l : List ℝ} {a : ℝ} : l.foldl max a = a ∨ l.foldl max a ∈ l := by
  induction l generalizing a with
  | nil => simp
  | cons y l ih =>
    rw [List.foldl_cons]
    rcases ih (a := max a y) with e | e
    · rcases max_choice a y with m | m
      · left; rw [e, m]
      · right; rw [e, m]; exact List.mem_cons_self
    · right; exact List.mem_cons_of_mem _ e

theorem maxAbs_ofField (f : Fld h w) : ∃ m, maxAbs (.arr (ofField f)) = .ok m ∧ IsMaxAbs f m := by
  have h0 : ¬ ((ofField f).h = 0 ∨ (ofField f).w = 0) := by
    rintro (e | e)
    · exact NeZero.ne h e
    · exact NeZero.ne w e
  refine ⟨_, if_neg h0, ?_⟩
  set l := (List.range (ofField f).h).flatMap fun i => (List.range (ofField f).w).map fun j => |(ofField f).at' i j| with hl
  have mem : ∀ x, x ∈ l ↔ ∃ i j, |f i j| = x := by
    intro x
    simp only [hl, List.mem_flatMap, List.mem_map, List.mem_range]
    constructor
    · rintro ⟨i, hi, j, hj, rfl⟩
      exact ⟨i, j, by rw [ofField_at' f hi hj]⟩
    · rintro ⟨i, j, rfl⟩
      refine ⟨i.val, ZMod.val_lt i, j.val, ZMod.val_lt j, ?_⟩
      rw [ofField_at' f (ZMod.val_lt i) (ZMod.val_lt j), ZMod.natCast_zmod_val, ZMod.natCast_zmod_val]
  have up := (foldl_max_le (l := l) (a := 0)).1 le_rfl
  refine ⟨fun i j => up.2 _ ((mem _).2 ⟨i, j, rfl⟩), ?_⟩
  rcases foldl_max_mem (l := l) (a := 0) with e | e
  · refine ⟨0, 0, le_antisymm (up.2 _ ((mem _).2 ⟨0, 0, rfl⟩)) ?_⟩
    rw [e]; exact abs_nonneg _
  · exact (mem _).1 e

theorem Rep.max {v : Val} {f : Fld h w} (H : Rep v f) : ∃ m, maxAbs v = .ok m ∧ IsMaxAbs f m := by
  rcases H with rfl | ⟨rfl, e⟩
  · exact maxAbs_ofField f
  · refine ⟨_, rfl, fun i j => ?_, 0, 0, ?_⟩ <;> rw [e]

theorem Rep.mean {v : Val} {f : Fld h w} (H : Rep v f) : mean v = avg f := by
  rcases H with rfl | ⟨rfl, e⟩
  · exact mean_ofField f
  · have : f = fun _ _ => 0 := funext fun i => funext fun j => e i j
    rw [this, avg_const]; rfl

theorem addBracket_ofField (hw' : HW) (hb : hw'.backend.Good h w) (x p f : Fld h w) (dx : ℝ) (c : Calls) :
    addBracket hw' (ofField x) (ofField p) (ofField f) dx c
      = .ok ((ofField fun i j => x i j - hw'.poisson_bracket_coeff * jac dx p f i j,
          dTerm (-hw'.poisson_bracket_coeff) (jac dx p f)),
        { c with poisson_bracket := c.poisson_bracket + if hw'.poisson_bracket_coeff = 0 then 0 else 1 }) := by
  unfold addBracket dTerm
  by_cases h0 : hw'.poisson_bracket_coeff = 0
  · simp [h0]
  · simp only [ne_eq, h0, not_false_eq_true, if_true, hb.bracket, map_ofField, M.bind_apply, M.pure_apply,
      M.lift_ok, Py.ok_bind, logCall_apply, iadd_ofField, if_false, neg_eq_zero]
    congr 4
    funext i j; ring

theorem addKappa_ofField (hw' : HW) (x g : Fld h w) :
    addKappa hw' (ofField x) (ofField g) = .ok (ofField fun i j => x i j - hw'.kappa_coeff * g i j,
      dTerm (-hw'.kappa_coeff) g) := by
  unfold addKappa dTerm
  by_cases h0 : hw'.kappa_coeff = 0
  · simp [h0]
  · simp only [ne_eq, h0, not_false_eq_true, if_true, map_ofField, iadd_ofField, Py.ok_bind, Py.pure_eq, neg_eq_zero, if_false]
    congr 3
    funext i j; ring

theorem rep_dTerm (nu : ℝ) (g : Fld h w) : Rep (dTerm nu g) (fun i j => nu * g i j) := by
  unfold dTerm
  by_cases h0 : nu = 0
  · exact .inr ⟨by rw [if_pos h0], fun i j => by rw [h0]; exact zero_mul _⟩
  · exact .inl (by rw [if_neg h0])

/-- what the line of `hw2d_gradient` must contain -/
def GoodLine (P : Params) (n o p : Fld h w) (l : Line) : Prop :=
  ∃ c bo d bn k e : ℝ, IsMaxAbs (fun i j => P.c1 * couple P.zonal p n i j) c ∧ IsMaxAbs (fun i j => P.pb * jac P.dx p o i j) bo ∧
    IsMaxAbs (hyper P o) d ∧ IsMaxAbs (fun i j => P.pb * jac P.dx p n i j) bn ∧
    IsMaxAbs (fun i j => P.kappa * gradY P.dx p i j) k ∧ IsMaxAbs (hyper P n) e ∧
    l = .gradient [c, bo, d] [c, bn, k, e]
      [avg (fun i j => P.c1 * couple P.zonal p n i j), avg (fun i j => -(P.pb * jac P.dx p o i j)), avg (hyper P o)]
      [avg (fun i j => P.c1 * couple P.zonal p n i j), avg (fun i j => -(P.pb * jac P.dx p n i j)),
        avg (fun i j => -(P.kappa * gradY P.dx p i j)), avg (hyper P n)]

theorem isMaxAbs_neg {f : Fld h w} {m : ℝ} (H : IsMaxAbs (fun i j => -f i j) m) : IsMaxAbs f m := by
  unfold IsMaxAbs at *
  simpa only [abs_neg] using H

theorem gradientLine_ok {P : Params} {n o p : Fld h w} {c bo d bn k e : Val}
    (hc : Rep c (fun i j => P.c1 * couple P.zonal p n i j)) (hbo : Rep bo (fun i j => -(P.pb * jac P.dx p o i j)))
    (hd : Rep d (hyper P o)) (hbn : Rep bn (fun i j => -(P.pb * jac P.dx p n i j)))
    (hk : Rep k (fun i j => -(P.kappa * gradY P.dx p i j))) (he : Rep e (hyper P n)) :
    ∃ l, GoodLine P n o p l ∧ gradientLine c bo d bn k e = .ok l := by
  obtain ⟨mc, ec, gc⟩ := hc.max
  obtain ⟨mbo, ebo, gbo⟩ := hbo.max
  obtain ⟨md, ed, gd⟩ := hd.max
  obtain ⟨mbn, ebn, gbn⟩ := hbn.max
  obtain ⟨mk, ek, gk⟩ := hk.max
  obtain ⟨me, ee, ge⟩ := he.max
  refine ⟨_, ⟨mc, mbo, md, mbn, mk, me, gc, isMaxAbs_neg gbo, gd, isMaxAbs_neg gbn, isMaxAbs_neg gk, ge, rfl⟩, ?_⟩
  unfold gradientLine
  rw [ec, ebo, ed, ebn, ek, ee, hc.mean, hbo.mean, hd.mean, hbn.mean, hk.mean, he.mean]
  rfl

theorem printGradient_ok {c bo d bn k e : Val} {l : Line} (H : gradientLine c bo d bn k e = .ok l) (s : Calls × List Line) :
    printGradient true c bo d bn k e s = .ok ((), (s.1, s.2 ++ [l])) := by
  unfold printGradient
  rw [if_pos rfl, D.bind_apply, H]
  rfl

theorem hw2d_gradient_on (b : Backend) (hb : b.Good h w) (P : Params) (dx0 k0 : ℝ) (test : Bool)
    (n o p : Fld h w) (a dt : ℝ) (s : Calls × List Line) :
    ∃ l, GoodLine P n o p l ∧
      hw2d_gradient (mkHW b P dx0 k0 test) (ofField n) (ofField o) (some (ofField p)) (some (.num a)) dt P.dx P.zonal true s
      = .ok (mk (gradKeys test) (st (gradS P dx0 dt p (n, o, 0, a, 0, 0))), (gradCalls P test s.1, s.2 ++ [l])) := by
  have key := hw2d_gradient_ofField b hb P dx0 k0 test n o p a dt s.1
  have hb' : (mkHW b P dx0 k0 test).backend.Good h w := hb
  obtain ⟨c, out⟩ := s
  have rep : ∀ (x : ℝ) (g : Fld h w), Rep (dTerm (-x) g) (fun i j => -(x * g i j)) := fun x g => by
    have := rep_dTerm (-x) g
    simpa only [neg_mul] using this
  have rep' : ∀ f : Fld h w, Rep (dTerm ((-1) ^ (P.N + 1) * P.nu) ((lap P.dx)^[P.N] f)) (hyper P f) := fun f => rep_dTerm _ _
  obtain ⟨l, hl, el⟩ := gradientLine_ok (P := P) (n := n) (o := o) (p := p) (.inl rfl) (rep P.pb (jac P.dx p o)) (rep' o)
    (rep P.pb (jac P.dx p n)) (rep P.kappa (gradY P.dx p)) (rep' n)
  refine ⟨l, hl, ?_⟩
  unfold HW.hw2d_gradient at key
  simp only [M.bind_apply, Option.elim, M.pure_apply, Py.ok_bind, hb'.grad, M.lift_ok, logCall_apply,
    coupling_ofField, map_ofField, Verif.addBracket_ofField _ hb', addDiffusion_ofField _ hb', Verif.addKappa_ofField] at key
  have hmap : ∀ {α : Type} (x : α × Calls) (out : List Line), (Except.map (fun r : α × Calls => (r.1, (r.2, out)))
    (.ok x : Except PyErr _)) = .ok (x.1, (x.2, out)) := fun _ _ => rfl
  unfold hw2d_gradient
  simp only [D.bind_apply, D.of_apply, M.pure_apply, Option.elim, hmap, Py.ok_bind, hb'.grad, M.lift_ok, logCall_apply,
    coupling_ofField, map_ofField, addBracket_ofField _ hb', addDiffusion_ofField _ hb', addKappa_ofField]
  have el' : gradientLine
      (.arr (ofField fun i j => (mkHW b P dx0 k0 test).c1 * couple P.zonal p n i j))
      (dTerm (-(mkHW b P dx0 k0 test).poisson_bracket_coeff) (jac P.dx p o))
      (dTerm (mkHW b P dx0 k0 test).nu ((lap P.dx)^[(mkHW b P dx0 k0 test).N] o))
      (dTerm (-(mkHW b P dx0 k0 test).poisson_bracket_coeff) (jac P.dx p n))
      (dTerm (-(mkHW b P dx0 k0 test).kappa_coeff) (gradY P.dx p))
      (dTerm (mkHW b P dx0 k0 test).nu ((lap P.dx)^[(mkHW b P dx0 k0 test).N] n)) = .ok l := el
  simp only [printGradient_ok el', Py.ok_bind]
  exact map_bind_ok (f := fun d => (mkHW b P dx0 k0 test).addConservation d (ofField n) (ofField o) (ofField p)
    (dTerm (mkHW b P dx0 k0 test).nu ((lap P.dx)^[(mkHW b P dx0 k0 test).N] n)) P.dx) key

theorem gradient_2d_eval (hw' : HW) (y : NS Val) (n o p : Arr ℝ) (a : Option Val) (dt dx : ℝ) (z debug : Bool)
    (hres : y.keys.any (· ∈ reservedNames) = false) (h1 : y.get? "density" = some (.arr n))
    (h2 : y.get? "omega" = some (.arr o)) (h3 : y.get? "age" = a) :
    gradient_2d hw' y (some (.arr p)) dt dx z debug = hw2d_gradient hw' n o (some p) a dt dx z debug := by
  funext s
  have e : ∀ x : Arr ℝ, D.of (M.lift (.ok x : Py (Arr ℝ))) s = .ok (x, s) := fun x => rfl
  have e' : D.of (M.lift (Except.map some (.ok p : Py (Arr ℝ)))) s = .ok (some p, s) := rfl
  simp -implicitDefEqProofs only [gradient_2d, hres, h1, h2, h3, Bool.false_eq_true, if_false, D.bind_apply, Val.asArr,
    e, e', Py.ok_bind, Option.elim]

theorem gradient_2d_on (b : Backend) (hb : b.Good h w) (P : Params) (dx0 k0 : ℝ) (test : Bool)
    {ks : List String} (hks : ∀ k ∈ ks, k ∈ gradKeys test) (hd : "density" ∈ ks) (ho : "omega" ∈ ks)
    (ha : "age" ∈ ks) (s : Sta h w) (p : Fld h w) (dt : ℝ) (c : Calls × List Line) :
    ∃ l, GoodLine P s.1 s.2.1 p l ∧
      gradient_2d (mkHW b P dx0 k0 test) (NS.mk ks (st s)) (some (.arr (ofField p))) dt P.dx P.zonal true c
        = .ok (NS.mk (gradKeys test) (st (gradS P dx0 dt p s)), (gradCalls P test c.1, c.2 ++ [l])) := by
  rw [gradient_2d_eval (n := ofField s.1) (o := ofField s.2.1) (a := some (.num s.2.2.2.1))]
  · have e4 : gradS P dx0 dt p s = gradS P dx0 dt p (s.1, s.2.1, 0, s.2.2.2.1, 0, 0) := by
      simp only [gradS]
    rw [e4]
    exact hw2d_gradient_on b hb P dx0 k0 test s.1 s.2.1 p s.2.2.2.1 dt c
  · rw [keys_mk]; exact not_reserved hks
  · rw [get?_mk, if_pos hd, st_density]
  · rw [get?_mk, if_pos ho, st_omega]
  · rw [get?_mk, if_pos ha, st_age]

/-- the increments of one Runge–Kutta step -/
noncomputable def rk4K (P : Params) (dx0 dt : ℝ) (s : Sta h w) : Fin 4 → Sta h w :=
  let k1 := dt • gradS P dx0 0 s.2.2.1 s
  let y1 := (1 / 2 : ℝ) • k1 + s
  let k2 := dt • gradS P dx0 (dt / 2) (phiF P.dx y1.2.1) y1
  let y2 := (1 / 2 : ℝ) • k2 + s
  let k3 := dt • gradS P dx0 (dt / 2) (phiF P.dx y2.2.1) y2
  let y3 := k3 + s
  let k4 := dt • gradS P dx0 dt (phiF P.dx y3.2.1) y3
  ![k1, k2, k3, k4]

/-- what the line of `rk4_step` must contain -/
def GoodStep (P : Params) (dx0 dt : ℝ) (s : Sta h w) (l : Line) : Prop :=
  ∃ m m1 m2 m3 m4, IsMaxAbs s.1 m ∧ IsMaxAbs (rk4K P dx0 dt s 0).1 m1 ∧ IsMaxAbs (rk4K P dx0 dt s 1).1 m2 ∧
    IsMaxAbs (rk4K P dx0 dt s 2).1 m3 ∧ IsMaxAbs (rk4K P dx0 dt s 3).1 m4 ∧
    l = .step (s.2.2.2.1 + dt) [m, m1, m2, m3, m4]

theorem stepLine_ok {ks : List String} {test : Bool} (hd : "density" ∈ ks) (P : Params) (dx0 dt : ℝ) (s : Sta h w) :
    ∃ l, GoodStep P dx0 dt s l ∧ stepLine (.num (s.2.2.2.1 + dt)) (NS.mk ks (st s))
      (NS.mk (gradKeys test) (st (rk4K P dx0 dt s 0))) (NS.mk (gradKeys test) (st (rk4K P dx0 dt s 1)))
      (NS.mk (gradKeys test) (st (rk4K P dx0 dt s 2))) (NS.mk (gradKeys test) (st (rk4K P dx0 dt s 3))) = .ok l := by
  obtain ⟨m, e, g⟩ := maxAbs_ofField s.1
  obtain ⟨m1, e1, g1⟩ := maxAbs_ofField (rk4K P dx0 dt s 0).1
  obtain ⟨m2, e2, g2⟩ := maxAbs_ofField (rk4K P dx0 dt s 1).1
  obtain ⟨m3, e3, g3⟩ := maxAbs_ofField (rk4K P dx0 dt s 2).1
  obtain ⟨m4, e4, g4⟩ := maxAbs_ofField (rk4K P dx0 dt s 3).1
  have hg : "density" ∈ gradKeys test := by unfold gradKeys; simp
  refine ⟨_, ⟨m, m1, m2, m3, m4, g, g1, g2, g3, g4, rfl⟩, ?_⟩
  simp only [stepLine, getItem_mk _ hd, getItem_mk _ hg, st_density, Py.ok_bind, e, e1, e2, e3, e4, formatAge, Py.pure_eq]

theorem printStep_ok {a : Val} {yn k1 k2 k3 k4 : NS Val} {l : Line} (H : stepLine a yn k1 k2 k3 k4 = .ok l) (s : Calls × List Line) :
    printStep true a yn k1 k2 k3 k4 s = .ok ((), (s.1, s.2 ++ [l])) := by
  unfold printStep
  rw [if_pos rfl, D.bind_apply, H]
  rfl

theorem rk4_step_on (b : Backend) (hb : b.Good h w) (P : Params) (dx0 k0 : ℝ) (test : Bool)
    {ks : List String} (hk : GoodKeys ks test) (s : Sta h w) (dt : ℝ) (c : Calls × List Line) :
    ∃ l, GoodStep P dx0 dt s l ∧ rk4_step (mkHW b P dx0 k0 test) true (NS.mk ks (st s)) dt P.dx c
      = .ok (NS.mk (stepKeys ks) (st (rk4S P dx0 dt s)), (rk4Calls P test c.1, c.2 ++ [l])) := by
  have hz : (mkHW b P dx0 k0 test).zonal = P.zonal := rfl
  have hks := filter_phi_facts hk.sub
  have hd : "density" ∈ ks.filter (· ≠ "phi") := by simp [hk.density]
  have ho : "omega" ∈ ks.filter (· ≠ "phi") := by simp [hk.omega]
  have ha : "age" ∈ ks.filter (· ≠ "phi") := by simp [hk.age]
  have hp : "phi" ∉ ks.filter (· ≠ "phi") := by simp
  have e3 : ∀ x y : ℝ, (Ops.add (Val.num x) (.num y) : Py Val) = .ok (.num (x + y)) := fun _ _ => rfl
  have hmap : ∀ {α : Type} (x : α × Calls) (out : List Line), (Except.map (fun r : α × Calls => (r.1, (r.2, out)))
    (.ok x : Except PyErr _)) = .ok (x.1, (x.2, out)) := fun _ _ => rfl
  obtain ⟨l, hl, el⟩ := stepLine_ok (test := test) hd P dx0 dt s
  refine ⟨l, hl, ?_⟩
  have key := rk4_step_mk b hb P dx0 k0 test hk s dt c.1
  unfold HW.rk4_step at key
  unfold rk4_step
  simp only [gradient_2d_off]
  simp only [without_mk, getItem_mk _ hk.phi, getItem_mk _ hk.age, st_phi, st_age, e3, hz, M.bind_apply, M.lift_ok,
    Py.ok_bind, gradient_2d_mk b hb P dx0 k0 test hks hd ho ha, mul_st, add_st hks,
    add_st (fun k (h : k ∈ gradKeys test) => h), get_phi_of_mk b hb P dx0 k0 test ho, logCall_apply,
    M.pure_apply, set_phi_age hp ha] at key
  simp only [without_mk, getItem_mk _ hk.phi, getItem_mk _ hk.age, st_phi, st_age, e3, hz, D.bind_apply, D.of_apply, hmap, M.lift_ok,
    Py.ok_bind, gradient_2d_mk b hb P dx0 k0 test hks hd ho ha, mul_st, add_st hks,
    add_st (fun k (h : k ∈ gradKeys test) => h), get_phi_of_mk b hb P dx0 k0 test ho, logCall_apply,
    D.pure_apply, set_phi_age hp ha]
  simp only [rk4K, Matrix.cons_val_zero, Matrix.cons_val_one, Matrix.cons_val] at el
  simp only [printStep_ok el, Py.ok_bind]
  injection key with key
  exact congrArg (fun r => (.ok (r.1, (r.2, c.2 ++ [l])) : Except PyErr _)) key

end fields

end Verif.Debug
