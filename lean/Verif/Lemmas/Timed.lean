import Verif.Model.Timed
import Mathlib.Tactic.Linarith
import Mathlib.Order.Monotone.Basic

/-!
# The profiled steps are the steps of `Model/HW.lean`, and where the time goes
-/

namespace Verif.Timed

variable {α β : Type}

/-- started in `p`, the timed program `x` returns what `y` returns, with the same counters, and the
profiles before and after are related by `R` -/
def At (R : Prof → Prof → Prop) (p : Prof) (x : T α) (y : M α) : Prop :=
  match x p with
  | .ok (a, p') => y p.calls = .ok (a, p'.calls) ∧ R p p'
  | .error e => y p.calls = .error e

/-- the same for every profile -/
def Sim (R : Prof → Prof → Prop) (x : T α) (y : M α) : Prop := ∀ p, At R p x y

/-- seconds logged for the parts of a step -/
def Times.parts (t : Times) : ℝ := t.get_phi + t.diffuse + t.gradient_2d + t.poisson_bracket

/-- no part loses time -/
structure Times.Le (t t' : Times) : Prop where
  get_phi : t.get_phi ≤ t'.get_phi
  diffuse : t.diffuse ≤ t'.diffuse
  gradient_2d : t.gradient_2d ≤ t'.gradient_2d
  poisson_bracket : t.poisson_bracket ≤ t'.poisson_bracket

theorem Times.Le.refl (t : Times) : t.Le t := ⟨le_rfl, le_rfl, le_rfl, le_rfl⟩

theorem Times.Le.trans {a b c : Times} (h : a.Le b) (h' : b.Le c) : a.Le c :=
  ⟨h.1.trans h'.1, h.2.trans h'.2, h.3.trans h'.3, h.4.trans h'.4⟩

variable (clock : ℕ → ℝ)

/-- what a part of a step does to the profile -/
def Inner (p p' : Prof) : Prop :=
  p.reads ≤ p'.reads ∧ (Monotone clock → p'.times.full_step = p.times.full_step ∧ p.times.Le p'.times ∧
    p'.times.parts - p.times.parts ≤ clock p'.reads - clock p.reads)

/-- what the rest of a step does that began at `t0` -/
def Tail (t0 : ℝ) (p p' : Prof) : Prop :=
  p.reads ≤ p'.reads ∧ (Monotone clock → ∃ k, p.reads ≤ k ∧ k < p'.reads ∧
    p'.times.full_step = p.times.full_step + (clock k - t0) ∧ p.times.Le p'.times ∧
    p'.times.parts - p.times.parts ≤ clock k - clock p.reads)

/-- what whole steps do -/
def Whole (p p' : Prof) : Prop :=
  p.reads ≤ p'.reads ∧ (Monotone clock → p.times.Le p'.times ∧
    p'.times.parts - p.times.parts ≤ p'.times.full_step - p.times.full_step ∧
    p'.times.full_step - p.times.full_step ≤ clock p'.reads - clock p.reads)

/-- what one step does -/
def Strict (p p' : Prof) : Prop := Whole clock p p' ∧ (StrictMono clock → p.times.full_step < p'.times.full_step)

theorem Inner.refl (p : Prof) : Inner clock p p := ⟨le_rfl, fun _ => ⟨rfl, .refl _, by simp⟩⟩

theorem Inner.trans {p q r : Prof} (h : Inner clock p q) (h' : Inner clock q r) : Inner clock p r :=
  ⟨h.1.trans h'.1, fun m => by
    obtain ⟨a1, a2, a3⟩ := h.2 m
    obtain ⟨b1, b2, b3⟩ := h'.2 m
    exact ⟨b1.trans a1, a2.trans b2, by linarith⟩⟩

theorem Inner.tail {p q r : Prof} {t0 : ℝ} (h : Inner clock p q) (h' : Tail clock t0 q r) : Tail clock t0 p r :=
  ⟨h.1.trans h'.1, fun m => by
    obtain ⟨a1, a2, a3⟩ := h.2 m
    obtain ⟨k, k1, k2, b1, b2, b3⟩ := h'.2 m
    exact ⟨k, h.1.trans k1, k2, by rw [b1, a1], a2.trans b2, by linarith⟩⟩

theorem Whole.refl (p : Prof) : Whole clock p p := ⟨le_rfl, fun _ => ⟨.refl _, by simp, by simp⟩⟩

theorem Whole.trans {p q r : Prof} (h : Whole clock p q) (h' : Whole clock q r) : Whole clock p r :=
  ⟨h.1.trans h'.1, fun m => by
    obtain ⟨a1, a2, a3⟩ := h.2 m
    obtain ⟨b1, b2, b3⟩ := h'.2 m
    exact ⟨a1.trans b1, by linarith, by linarith⟩⟩

theorem Times.Le.parts_le {a b : Times} (h : a.Le b) : a.parts ≤ b.parts := by
  obtain ⟨h1, h2, h3, h4⟩ := h
  unfold Times.parts
  linarith

theorem Strict.trans {p q r : Prof} (h : Strict clock p q) (h' : Whole clock q r) : Strict clock p r :=
  ⟨h.1.trans clock h', fun m => by
    obtain ⟨b1, b2, -⟩ := h'.2 m.monotone
    have := h.2 m
    have := b1.parts_le
    linarith⟩

variable {clock}

theorem Sim.mono {R Q : Prof → Prof → Prop} {x : T α} {y : M α} (h : Sim R x y) (t : ∀ {p q}, R p q → Q p q) : Sim Q x y := by
  intro p
  have hp := h p
  unfold At at hp ⊢
  cases hx : x p with
  | error e => rw [hx] at hp; exact hp
  | ok r => rw [hx] at hp; exact ⟨hp.1, t hp.2⟩

theorem At.bind {R Q S : Prof → Prof → Prop} {p : Prof} {x : T α} {y : M α} {f : α → T β} {g : α → M β} (h : At R p x y)
    (h' : ∀ a, Sim Q (f a) (g a)) (t : ∀ {p q r}, R p q → Q q r → S p r) : At S p (x >>= f) (y >>= g) := by
  unfold At at h ⊢
  change match (x p >>= fun r => f r.1 r.2) with
    | .ok (a, p') => (y p.calls >>= fun r => g r.1 r.2) = .ok (a, p'.calls) ∧ S p p'
    | .error e => (y p.calls >>= fun r => g r.1 r.2) = .error e
  cases hx : x p with
  | error e =>
    rw [hx] at h
    dsimp only at h
    rw [h]
    rfl
  | ok r =>
    obtain ⟨a, q⟩ := r
    rw [hx] at h
    obtain ⟨h1, h2⟩ := h
    rw [h1]
    have hq := h' a q
    unfold At at hq
    change match f a q with
      | .ok (b, p') => g a q.calls = .ok (b, p'.calls) ∧ S p p'
      | .error e => g a q.calls = .error e
    cases hf : f a q with
    | error e => rw [hf] at hq; exact hq
    | ok r =>
      obtain ⟨b, r⟩ := r
      rw [hf] at hq
      exact ⟨hq.1, t h2 hq.2⟩

theorem Sim.bind {x : T α} {y : M α} {f : α → T β} {g : α → M β} (h : Sim (Inner clock) x y)
    (h' : ∀ a, Sim (Inner clock) (f a) (g a)) : Sim (Inner clock) (x >>= f) (y >>= g) :=
  fun p => (h p).bind h' (Inner.trans clock)

theorem Sim.bind_tail {t0 : ℝ} {x : T α} {y : M α} {f : α → T β} {g : α → M β} (h : Sim (Inner clock) x y)
    (h' : ∀ a, Sim (Tail clock t0) (f a) (g a)) : Sim (Tail clock t0) (x >>= f) (y >>= g) :=
  fun p => (h p).bind h' (Inner.tail clock)

theorem Sim.bind_strict {x : T α} {y : M α} {f : α → T β} {g : α → M β} (h : Sim (Strict clock) x y)
    (h' : ∀ a, Sim (Whole clock) (f a) (g a)) : Sim (Strict clock) (x >>= f) (y >>= g) :=
  fun p => (h p).bind h' (Strict.trans clock)

theorem sim_pure (a : α) : Sim (Inner clock) (pure a : T α) (pure a : M α) := fun p => ⟨rfl, Inner.refl clock p⟩

theorem sim_lift (x : Py α) : Sim (Inner clock) (T.lift x) (M.lift x) := fun p => by
  cases x with
  | error e => rfl
  | ok a => exact ⟨rfl, Inner.refl clock p⟩

/-- a block between two clock readings -/
theorem sim_timed (F : ℝ → Times → Times) (G : Calls → Calls) (x : Py α) {k : α → T β} {k' : α → M β}
    (hF : ∀ d t, (F d t).full_step = t.full_step ∧ (F d t).parts = t.parts + d ∧ (0 ≤ d → t.Le (F d t)))
    (h : ∀ a, Sim (Inner clock) (k a) (k' a)) :
    Sim (Inner clock) (do
      let t0 ← now clock
      let a ← T.lift x
      let t1 ← now clock
      log (F (t1 - t0)) G
      k a) (do
      let a ← M.lift x
      logCall G
      k' a) := by
  intro p
  cases x with
  | error e => rfl
  | ok a =>
    have hk := h a ⟨p.reads + 1 + 1, F (clock (p.reads + 1) - clock p.reads) p.times, G p.calls⟩
    unfold At at hk ⊢
    change match k a ⟨p.reads + 1 + 1, F (clock (p.reads + 1) - clock p.reads) p.times, G p.calls⟩ with
      | .ok (b, p') => k' a (G p.calls) = .ok (b, p'.calls) ∧ Inner clock p p'
      | .error e => k' a (G p.calls) = .error e
    cases hr : k a ⟨p.reads + 1 + 1, F (clock (p.reads + 1) - clock p.reads) p.times, G p.calls⟩ with
    | error e => rw [hr] at hk; exact hk
    | ok r =>
      obtain ⟨b, p'⟩ := r
      rw [hr] at hk
      refine ⟨hk.1, Inner.trans clock ⟨?_, fun m => ?_⟩ hk.2⟩
      · dsimp only
        omega
      · obtain ⟨f1, f2, f3⟩ := hF (clock (p.reads + 1) - clock p.reads) p.times
        have m1 := m (show p.reads ≤ p.reads + 1 by omega)
        have m2 := m (show p.reads + 1 ≤ p.reads + 1 + 1 by omega)
        exact ⟨f1, f3 (by linarith), by rw [f2]; linarith⟩

/-- the end of a step -/
theorem sim_end (t0 : ℝ) (a : α) :
    Sim (Tail clock t0) (do
      let t1 ← now clock
      log (fun t => { t with full_step := t.full_step + (t1 - t0) }) fun c => { c with full_step := c.full_step + 1 }
      pure a) (do
      logCall fun c => { c with full_step := c.full_step + 1 }
      pure a) :=
  fun p => ⟨rfl, Nat.le_succ _, fun _ => ⟨p.reads, le_rfl, Nat.lt_succ_self _, rfl, ⟨le_rfl, le_rfl, le_rfl, le_rfl⟩, by
    change p.times.parts - p.times.parts ≤ _
    simp⟩⟩

/-- a step: everything between the first reading and the last -/
theorem sim_step {f : ℝ → T α} {y : M α} (h : ∀ t0, Sim (Tail clock t0) (f t0) y) :
    Sim (Strict clock) (now clock >>= f) y := by
  intro p
  have hk := h (clock p.reads) { p with reads := p.reads + 1 }
  unfold At at hk ⊢
  change match f (clock p.reads) { p with reads := p.reads + 1 } with
    | .ok (b, p') => y p.calls = .ok (b, p'.calls) ∧ Strict clock p p'
    | .error e => y p.calls = .error e
  cases hr : f (clock p.reads) { p with reads := p.reads + 1 } with
  | error e => rw [hr] at hk; exact hk
  | ok r =>
    obtain ⟨b, p'⟩ := r
    rw [hr] at hk
    obtain ⟨h1, h2, h3⟩ := hk
    refine ⟨h1, ⟨by dsimp only at h2; omega, fun m => ?_⟩, fun m => ?_⟩
    · obtain ⟨k, k1, k2, b1, b2, b3⟩ := h3 m
      dsimp only at k1 b1 b2 b3
      have m1 := m (show p.reads ≤ p.reads + 1 by omega)
      have m2 := m k2.le
      exact ⟨b2, by linarith, by linarith⟩
    · obtain ⟨k, k1, -, b1, -, -⟩ := h3 m.monotone
      dsimp only at k1 b1
      have m1 := m (show p.reads < k by omega)
      linarith

theorem sim_get_phi (hw : HW) (omega : Arr ℝ) (dx : ℝ) : Sim (Inner clock) (get_phi clock hw omega dx) (hw.get_phi omega dx) :=
  sim_timed (fun d t => { t with get_phi := t.get_phi + d }) _ _
    (fun d t => ⟨rfl, by unfold Times.parts; ring, fun h => ⟨by simpa using h, le_rfl, le_rfl, le_rfl⟩⟩) fun a => sim_pure a

theorem sim_diffuse (hw : HW) (arr : Arr ℝ) (dx : ℝ) (N : ℕ) :
    Sim (Inner clock) (diffuse clock hw arr dx N) (hw.diffuse arr dx N) :=
  sim_timed (fun d t => { t with diffuse := t.diffuse + d }) _ _
    (fun d t => ⟨rfl, by unfold Times.parts; ring, fun h => ⟨le_rfl, by simpa using h, le_rfl, le_rfl⟩⟩) fun a => sim_pure a

theorem sim_addBracket (hw : HW) (x phi psi : Arr ℝ) (dx : ℝ) :
    Sim (Inner clock) (addBracket clock hw x phi psi dx) (hw.addBracket x phi psi dx) := by
  unfold addBracket HW.addBracket
  split
  · exact sim_timed (fun d t => { t with poisson_bracket := t.poisson_bracket + d }) _ _
      (fun d t => ⟨rfl, by unfold Times.parts; ring, fun h => ⟨le_rfl, le_rfl, le_rfl, by simpa using h⟩⟩) fun a => sim_lift _
  · exact sim_pure x

theorem sim_addDiffusion (hw : HW) (x f : Arr ℝ) (dx : ℝ) :
    Sim (Inner clock) (addDiffusion clock hw x f dx) (hw.addDiffusion x f dx) := by
  unfold addDiffusion HW.addDiffusion
  split
  · exact (sim_diffuse hw f dx hw.N).bind fun d => (sim_lift _).bind fun y => sim_pure _
  · exact sim_pure _

theorem sim_addConservation (hw : HW) (r : NS Val) (density omega phi : Arr ℝ) (Dn : Val) (dx : ℝ) :
    Sim (Inner clock) (addConservation clock hw r density omega phi Dn dx) (hw.addConservation r density omega phi Dn dx) := by
  unfold addConservation HW.addConservation
  split
  · exact (sim_lift _).bind fun _ => (sim_diffuse hw _ _ _).bind fun _ => (sim_lift _).bind fun _ =>
      (sim_lift _).bind fun _ => sim_pure _
  · exact sim_pure _

theorem sim_gradient (hw : HW) (density omega : Arr ℝ) (phi : Option (Arr ℝ)) (age : Option Val) (dt dx : ℝ) (zonal : Bool) :
    Sim (Inner clock) (hw2d_gradient clock hw density omega phi age dt dx zonal)
      (hw.hw2d_gradient density omega phi age dt dx zonal) := by
  unfold hw2d_gradient HW.hw2d_gradient
  refine Sim.bind ?_ fun phi => ?_
  · cases phi with
    | none => exact sim_get_phi hw omega dx
    | some p => exact sim_pure p
  · refine sim_timed (fun d t => { t with gradient_2d := t.gradient_2d + d }) _ _
      (fun d t => ⟨rfl, by unfold Times.parts; ring, fun h => ⟨le_rfl, le_rfl, by simpa using h, le_rfl⟩⟩) fun dy => ?_
    exact (sim_lift _).bind fun _ => (sim_addBracket hw _ _ _ _).bind fun _ => (sim_addDiffusion hw _ _ _).bind fun _ =>
      (sim_addBracket hw _ _ _ _).bind fun _ => (sim_lift _).bind fun _ => (sim_addDiffusion hw _ _ _).bind fun _ =>
      (sim_lift _).bind fun _ => sim_addConservation hw _ _ _ _ _ _

theorem sim_gradient_2d (hw : HW) (y : NS Val) (phi : Option Val) (dt dx : ℝ) (zonal : Bool) :
    Sim (Inner clock) (gradient_2d clock hw y phi dt dx zonal) (hw.gradient_2d y phi dt dx zonal) := by
  unfold gradient_2d HW.gradient_2d
  split
  · exact sim_lift _
  · cases y.get? "density" with
    | none => exact sim_lift _
    | some d =>
      cases y.get? "omega" with
      | none => exact sim_lift _
      | some o =>
        exact (sim_lift _).bind fun _ => (sim_lift _).bind fun _ => (sim_lift _).bind fun _ => sim_gradient hw _ _ _ _ _ _ _

theorem sim_get_phi_of (hw : HW) (y : NS Val) (dx : ℝ) : Sim (Inner clock) (get_phi_of clock hw y dx) (hw.get_phi_of y dx) :=
  (sim_lift _).bind fun _ => (sim_lift _).bind fun _ => (sim_get_phi hw _ _).bind fun _ => sim_pure _

theorem sim_euler (hw : HW) (s : NS Val) (dt dx : ℝ) : Sim (Strict clock) (euler_step clock hw s dt dx) (hw.euler_step s dt dx) :=
  sim_step fun t0 => (sim_gradient_2d hw _ _ _ _ _).bind_tail fun _ => (sim_lift _).bind_tail fun _ =>
    (sim_lift _).bind_tail fun _ => (sim_get_phi_of hw _ _).bind_tail fun _ => (sim_lift _).bind_tail fun _ =>
    (sim_lift _).bind_tail fun _ => sim_end t0 _

theorem sim_rk4 (hw : HW) (s : NS Val) (dt dx : ℝ) : Sim (Strict clock) (rk4_step clock hw s dt dx) (hw.rk4_step s dt dx) :=
  sim_step fun t0 => (sim_lift _).bind_tail fun _ =>
    (sim_gradient_2d hw _ _ _ _ _).bind_tail fun _ => (sim_lift _).bind_tail fun _ =>
    (sim_lift _).bind_tail fun _ => (sim_get_phi_of hw _ _).bind_tail fun _ =>
    (sim_gradient_2d hw _ _ _ _ _).bind_tail fun _ => (sim_lift _).bind_tail fun _ =>
    (sim_lift _).bind_tail fun _ => (sim_get_phi_of hw _ _).bind_tail fun _ =>
    (sim_gradient_2d hw _ _ _ _ _).bind_tail fun _ => (sim_lift _).bind_tail fun _ =>
    (sim_lift _).bind_tail fun _ => (sim_get_phi_of hw _ _).bind_tail fun _ =>
    (sim_gradient_2d hw _ _ _ _ _).bind_tail fun _ => (sim_lift _).bind_tail fun _ =>
    (sim_lift _).bind_tail fun _ => (sim_get_phi_of hw _ _).bind_tail fun _ =>
    (sim_lift _).bind_tail fun _ => (sim_lift _).bind_tail fun _ => sim_end t0 _

end Verif.Timed
