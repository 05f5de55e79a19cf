import Verif.Props.Scaling

/-!
# C112: uniform offsets of density and vorticity
-/

set_option linter.unusedSectionVars false

namespace Verif.Props

open Arr NS Spec

variable (hw : HW) (dx : ℝ) {h w : ℕ}

/-- `A + a` -/
def offsetArr (a : ℝ) (A : Arr ℝ) : Arr ℝ := A.map (· + a)

/-- the coupling constant that acts on uniform fields: none with zonal coupling -/
noncomputable def uniformCoupling (hw : HW) : ℝ := if hw.zonal then 0 else hw.c1

/-- the states differ by the uniform offsets `a` of the density and `b` of the vorticity -/
def Off [NeZero h] [NeZero w] (a b : ℝ) (s s' : Sta h w) : Prop :=
  (∀ i j, s'.1 i j = s.1 i j + a) ∧ ∀ i j, s'.2.1 i j = s.2.1 i j + b

section

variable [NeZero h] [NeZero w]

theorem Off.add {a b a' b' : ℝ} {s s' t t' : Sta h w} (h1 : Off a b s s') (h2 : Off a' b' t t') :
    Off (a + a') (b + b') (s + t) (s' + t') := by
  refine ⟨fun i j => ?_, fun i j => ?_⟩
  · change s'.1 i j + t'.1 i j = s.1 i j + t.1 i j + (a + a')
    rw [h1.1, h2.1]; ring
  · change s'.2.1 i j + t'.2.1 i j = s.2.1 i j + t.2.1 i j + (b + b')
    rw [h1.2, h2.2]; ring

theorem Off.smul (c : ℝ) {a b : ℝ} {s s' : Sta h w} (h1 : Off a b s s') : Off (c * a) (c * b) (c • s) (c • s') := by
  refine ⟨fun i j => ?_, fun i j => ?_⟩
  · change c * s'.1 i j = c * s.1 i j + c * a
    rw [h1.1]; ring
  · change c * s'.2.1 i j = c * s.2.1 i j + c * b
    rw [h1.2]; ring

theorem Off.congr {a b a' b' : ℝ} {s s' : Sta h w} (h1 : Off a b s s') (ha : a = a') (hb : b = b') :
    Off a' b' s s' := ha ▸ hb ▸ h1

theorem phiF_offset (dx b : ℝ) {o o' : Fld h w} (e : ∀ i j, o' i j = o i j + b) : phiF dx o' = phiF dx o := by
  have e' : o' = fun i j => o i j + (fun _ _ => b : Fld h w) i j := by funext i j; exact e i j
  have : avg o' = avg o + b := by rw [e', avg_add, avg_const]
  unfold phiF
  have : (fun i j => o' i j - avg o') = fun i j => o i j - avg o := by
    funext i j; rw [this, e]; ring
  rw [this]

theorem jac_offset (dx a : ℝ) (p : Fld h w) {n n' : Fld h w} (e : ∀ i j, n' i j = n i j + a) :
    jac dx p n' = jac dx p n := by
  funext i j
  simp only [jac, e]; ring

theorem lap_offset (dx a : ℝ) {n n' : Fld h w} (e : ∀ i j, n' i j = n i j + a) : lap dx n' = lap dx n := by
  funext i j
  simp only [lap, e]; ring

theorem hyper_offset (P : Params) (hN : 1 ≤ P.N ∨ P.nu = 0) (a : ℝ) {n n' : Fld h w}
    (e : ∀ i j, n' i j = n i j + a) : hyper P n' = hyper P n := by
  funext i j
  rcases hN with hN | hN
  · obtain ⟨m, hm⟩ : ∃ m, P.N = m + 1 := ⟨P.N - 1, by omega⟩
    unfold hyper
    rw [hm, Function.iterate_succ_apply, Function.iterate_succ_apply, lap_offset P.dx a e]
  · simp [hyper, hN]

theorem couple_offset (P : Params) (a : ℝ) (p : Fld h w) {n n' : Fld h w} (e : ∀ i j, n' i j = n i j + a)
    (i : ZMod h) (j : ZMod w) : P.c1 * couple P.zonal p n' i j = P.c1 * couple P.zonal p n i j - c1m P * a := by
  unfold c1m couple
  cases P.zonal
  · simp only [Bool.false_eq_true, if_false, e]; ring
  · simp only [if_true, nonZonal, e, Finset.sum_add_distrib, Finset.sum_const, Finset.card_univ, ZMod.card,
      nsmul_eq_mul]
    have : (h : ℝ) ≠ 0 := Nat.cast_ne_zero.2 (NeZero.ne h)
    field_simp
    ring

theorem Off.grad (P : Params) (hN : 1 ≤ P.N ∨ P.nu = 0) (dx0 d d' : ℝ) {p p' : Fld h w} (hp : p' = p) {a b : ℝ} {s s' : Sta h w}
    (e : Off a b s s') : Off (-(c1m P * a)) (-(c1m P * a)) (gradS P dx0 d p s) (gradS P dx0 d' p' s') := by
  subst hp
  refine ⟨fun i j => ?_, fun i j => ?_⟩
  · change rhsN P s'.1 p' i j = rhsN P s.1 p' i j + _
    simp only [rhsN]
    rw [couple_offset P a p' e.1, jac_offset P.dx a p' e.1, hyper_offset P hN a e.1]; ring
  · change rhsO P s'.1 s'.2.1 p' i j = rhsO P s.1 s.2.1 p' i j + _
    simp only [rhsO]
    rw [couple_offset P a p' e.1, jac_offset P.dx b p' e.2, hyper_offset P hN b e.2]; ring

theorem Off.step (P : Params) (hN : 1 ≤ P.N ∨ P.nu = 0) (dx0 : ℝ) (t : Step) {a b : ℝ} {s s' : Sta h w}
    (e : Off a b s s') (hp : s'.2.2.1 = s.2.2.1) :
    Off (t.growth (c1m P) * a) (b + (t.growth (c1m P) * a - a)) (stepS P dx0 t s) (stepS P dx0 t s')
      ∧ (stepS P dx0 t s').2.2.1 = (stepS P dx0 t s).2.2.1 := by
  have key : Off (t.growth (c1m P) * a) (b + (t.growth (c1m P) * a - a)) (stepS P dx0 t s) (stepS P dx0 t s') := by
    cases t with
    | rk4 dt =>
      change Off _ _ (rk4S P dx0 dt s) (rk4S P dx0 dt s')
      have k1 := (e.grad P hN dx0 0 0 hp).smul dt
      have y1 := (k1.smul (1 / 2)).add e
      have k2 := (y1.grad P hN dx0 (dt / 2) (dt / 2) (phiF_offset P.dx _ y1.2)).smul dt
      have y2 := (k2.smul (1 / 2)).add e
      have k3 := (y2.grad P hN dx0 (dt / 2) (dt / 2) (phiF_offset P.dx _ y2.2)).smul dt
      have y3 := k3.add e
      have k4 := (y3.grad P hN dx0 dt dt (phiF_offset P.dx _ y3.2)).smul dt
      have y := ((k4.add ((k3.smul 2).add ((k2.smul 2).add k1))).smul (1 / 6)).add e
      refine Off.congr (a := _) (b := _) ⟨y.1, y.2⟩ ?_ ?_ <;> simp only [Step.growth] <;> ring
    | euler dt =>
      change Off _ _ (eulerS P dx0 dt s.2.2.1 s) (eulerS P dx0 dt s'.2.2.1 s')
      have y := ((e.grad P hN dx0 0 0 hp).smul dt).add e
      refine Off.congr (a := _) (b := _) ⟨y.1, y.2⟩ ?_ ?_ <;> simp only [Step.growth] <;> ring
  refine ⟨key, ?_⟩
  rw [stepS_phi, stepS_phi, phiF_offset P.dx _ key.2]

theorem Off.hist (P : Params) (hN : 1 ≤ P.N ∨ P.nu = 0) (dx0 : ℝ) (l : List Step) {a b : ℝ} {s s' : Sta h w}
    (e : Off a b s s') (hp : s'.2.2.1 = s.2.2.1) :
    Off ((l.map (Step.growth (c1m P))).prod * a) (b + ((l.map (Step.growth (c1m P))).prod * a - a))
        (histS P dx0 l s) (histS P dx0 l s')
      ∧ (histS P dx0 l s').2.2.1 = (histS P dx0 l s).2.2.1 := by
  induction l generalizing a b s s' with
  | nil => exact ⟨e.congr (by simp) (by simp), hp⟩
  | cons t l ih =>
    obtain ⟨e1, e2⟩ := e.step P hN dx0 t hp
    obtain ⟨e3, e4⟩ := ih e1 e2
    refine ⟨e3.congr ?_ ?_, e4⟩ <;> simp only [List.map_cons, List.prod_cons] <;> ring

theorem offsetArr_ofField (a : ℝ) (f : Fld h w) : offsetArr a (ofField f) = ofField fun i j => f i j + a :=
  map_ofField _ _

end

/-- **C112 (uniform offsets).** Add the number `a` to the density and `b` to the vorticity of the initial state (same
potential).  After any sequence of steps the potential is unchanged, the density differs by the number `a · g` and the vorticity
by `b + (a · g - a)`, where `g` is the product of the growth factors of the steps (`1` with `zonal=True`): uniform fields
neither drive nor are driven by the rest. -/
theorem C112_offset (h0 : 0 < h) (w0 : 0 < w) (hb : Std hw.backend h w) (hN : 1 ≤ hw.N ∨ hw.nu = 0)
    (l : List Step) (s s₁ : NS Val) (hs : IsState hw.TEST_CONSERVATION h w s)
    (hs₁ : IsState hw.TEST_CONSERVATION h w s₁) (a b : ℝ) (hd : arrOf s₁ "density" = offsetArr a (arrOf s "density"))
    (ho : arrOf s₁ "omega" = offsetArr b (arrOf s "omega")) (hp : arrOf s₁ "phi" = arrOf s "phi") (c c₁ : Calls) :
    ∃ s' c' s₁' c₁', history hw dx l s c = .ok (s', c') ∧ history hw dx l s₁ c₁ = .ok (s₁', c₁') ∧
      arrOf s₁' "density"
        = offsetArr ((l.map (Step.growth (uniformCoupling hw))).prod * a) (arrOf s' "density") ∧
      arrOf s₁' "omega"
        = offsetArr (b + ((l.map (Step.growth (uniformCoupling hw))).prod * a - a)) (arrOf s' "omega") ∧
      arrOf s₁' "phi" = arrOf s' "phi" := by
  have : NeZero h := ⟨h0.ne'⟩
  have : NeZero w := ⟨w0.ne'⟩
  have hN' : 1 ≤ (parOf hw dx).N ∨ (parOf hw dx).nu = 0 := hN.imp id fun e => by simp [parOf, e]
  obtain ⟨ks, t, hk, hn, rfl⟩ := hs.exists_mk
  obtain ⟨ks₁, t₁, hk₁, hn₁, rfl⟩ := hs₁.exists_mk
  rw [arrOf_density hk₁, arrOf_density hk, offsetArr_ofField] at hd
  rw [arrOf_omega hk₁, arrOf_omega hk, offsetArr_ofField] at ho
  rw [arrOf_phi hk₁, arrOf_phi hk] at hp
  have e : Off a b t t₁ := ⟨fun i j => congrFun (congrFun (ofField_inj hd) i) j,
    fun i j => congrFun (congrFun (ofField_inj ho) i) j⟩
  obtain ⟨⟨e1, e2⟩, e3⟩ := e.hist (parOf hw dx) hN' hw.dx l (ofField_inj hp)
  refine ⟨_, _, _, _, history_eval hw dx hb.good hk l t c, history_eval hw dx hb.good hk₁ l t₁ c₁, ?_, ?_, ?_⟩
  · rw [arrOf_density (goodKeys_hist _ hk₁), arrOf_density (goodKeys_hist _ hk), offsetArr_ofField]
    exact congrArg ofField (funext fun i => funext fun j => e1 i j)
  · rw [arrOf_omega (goodKeys_hist _ hk₁), arrOf_omega (goodKeys_hist _ hk), offsetArr_ofField]
    exact congrArg ofField (funext fun i => funext fun j => e2 i j)
  · rw [arrOf_phi (goodKeys_hist _ hk₁), arrOf_phi (goodKeys_hist _ hk), e3]

/-- **C112 (measured flux).** The particle flux does not see uniform offsets of the density or the potential. -/
theorem C112_flux (h0 : 0 < h) (w0 : 0 < w) (n p : Arr ℝ) (hn : n.h = h ∧ n.w = w) (hp : p.h = h ∧ p.w = w)
    (a b : ℝ) :
    Properties.get_gamma_n (offsetArr a n) (offsetArr b p) dx = Properties.get_gamma_n n p dx ∧
      ∃ x, Properties.get_gamma_n n p dx = .ok x := by
  have : NeZero h := ⟨h0.ne'⟩
  have : NeZero w := ⟨w0.ne'⟩
  obtain ⟨n, rfl⟩ : ∃ f : Fld h w, n = ofField f := ⟨toFld n, (ofField_toFld hn.1 hn.2).symm⟩
  obtain ⟨p, rfl⟩ : ∃ f : Fld h w, p = ofField f := ⟨toFld p, (ofField_toFld hp.1 hp.2).symm⟩
  rw [offsetArr_ofField, offsetArr_ofField, gamma_n_ofField, gamma_n_ofField]
  refine ⟨congrArg Except.ok ?_, _, rfl⟩
  have e : gradY dx (fun i j => p i j + b) = gradY dx p := by
    funext i j; simp only [gradY]; ring
  have z : avg (gradY dx p) = 0 := by
    refine avg_of_S ?_
    exact S_gradY dx p
  unfold gamN
  rw [e]
  have e' : ∀ i j, (n i j + a) * gradY dx p i j = n i j * gradY dx p i j + a * gradY dx p i j := fun i j => by ring
  rw [avg_congr e', avg_add, avg_smul, z]
  ring

/-! ### non-vacuity -/

example := C112_offset (HW.init numpyBackend 1 3 1 (1 / 10) 1) 1 (h := 4) (w := 5) (by decide) (by decide)
  (.inl rfl) (.inl (by decide)) [.rk4 (1 / 10), .euler (1 / 20)] _ _
  (stateOf_isState (n := tab 4 5 fun i j => (i * j : ℝ)) (o := tab 4 5 fun i j => (i - j : ℝ))
    (p := tab 4 5 fun i _ => (i : ℝ)) ⟨rfl, rfl⟩ ⟨rfl, rfl⟩ ⟨rfl, rfl⟩ 7)
  (stateOf_isState (n := offsetArr 2 (tab 4 5 fun i j => (i * j : ℝ))) (o := offsetArr 3 (tab 4 5 fun i j => (i - j : ℝ)))
    (p := tab 4 5 fun i _ => (i : ℝ)) ⟨rfl, rfl⟩ ⟨rfl, rfl⟩ ⟨rfl, rfl⟩ 7) 2 3 rfl rfl rfl {} {}

example := C112_flux 1 (h := 4) (w := 5) (by decide) (by decide) (tab 4 5 fun i j => (i * j : ℝ))
  (tab 4 5 fun i j => (i - j : ℝ)) ⟨rfl, rfl⟩ ⟨rfl, rfl⟩ 2 3

end Verif.Props
