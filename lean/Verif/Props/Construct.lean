import Verif.Model.Construct
import Verif.Spec.Construct
import Verif.Lemmas.NSSet
import Mathlib.Tactic.NormNum
import Mathlib.Tactic.IntervalCases

/-!
# C130: creating a simulation
-/

namespace Verif.Props

open Spec

private theorem zip_get? {V : Type} (params : List String) (hp : params.Nodup) (pos : List V) (i : ℕ) (h : i < params.length) :
    NS.get? (params.zip pos) params[i] = pos[i]? := by
  induction params generalizing pos i with
  | nil => simp at h
  | cons q params ih =>
    cases pos with
    | nil => simp [NS.get?]
    | cons v pos =>
      rw [List.zip_cons_cons, NS.get?_cons]
      cases i with
      | zero => simp
      | succ i =>
        rw [List.nodup_cons] at hp
        have hi : i < params.length := by simpa using h
        have hq : ¬ q = params[i] := fun e => hp.1 (e ▸ List.getElem_mem hi)
        simp only [List.getElem_cons_succ]
        rw [if_neg hq, ih hp.2 pos i hi, List.getElem?_cons_succ]

private theorem bound_get? {V : Type} {params : List String} (hp : params.Nodup) (pos : List V) (kw : NS V)
    {i : ℕ} (h : i < params.length) :
    NS.get? (params.zip pos ++ kw) params[i] = given pos kw i params[i] := by
  rw [NS.get?_append, zip_get? params hp pos i h]
  unfold given
  split
  · next h' => rw [List.getElem?_eq_getElem h']; rfl
  · next h' => rw [List.getElem?_eq_none (by omega)]; rfl

private theorem bindArgs_ok {V : Type} {params : List String} (hp : params.Nodup) {pos : List V} {kw : NS V}
    (h1 : pos.length ≤ params.length) (h2 : ∀ k ∈ kw.keys, ∃ i, ∃ h : i < params.length, params[i] = k ∧ pos.length ≤ i) :
    bindArgs params pos kw = .ok (params.zip pos ++ kw) := by
  unfold bindArgs
  rw [if_neg (by omega), if_neg, if_neg]
  · simp only [List.any_eq_true, decide_eq_true_eq, not_exists, not_and]
    intro k hk hm
    obtain ⟨i, hi, e, hle⟩ := h2 k hk
    obtain ⟨j, hj, e'⟩ := List.getElem_of_mem hm
    rw [List.getElem_take, ← e] at e'
    have := (List.Nodup.getElem_inj_iff hp).mp e'
    have := List.length_take_le pos.length params
    omega
  · simp only [List.any_eq_true, decide_eq_true_eq, not_exists, not_and, not_not]
    intro k hk
    obtain ⟨i, hi, e, -⟩ := h2 k hk
    exact e ▸ List.getElem_mem hi

private theorem bindArgs_error {V : Type} {params : List String} {pos : List V} {kw : NS V}
    (h : ¬ (pos.length ≤ params.length ∧ ∀ k ∈ kw.keys, ∃ i, ∃ h : i < params.length, params[i] = k ∧ pos.length ≤ i)) :
    bindArgs params pos kw = .error .typeError := by
  unfold bindArgs
  split
  · rfl
  · next h1 =>
    split
    · rfl
    · next h2 =>
      split
      · rfl
      · next h3 =>
        refine absurd ⟨by omega, fun k hk => ?_⟩ h
        simp only [List.any_eq_true, decide_eq_true_eq, not_exists, not_and, not_not] at h2 h3
        obtain ⟨i, hi, e⟩ := List.getElem_of_mem (h2 k hk)
        refine ⟨i, hi, e, ?_⟩
        by_contra hlt
        refine h3 k hk ?_
        rw [List.mem_take_iff_getElem]
        exact ⟨i, by omega, e⟩

private theorem initParams_nodup : initParams.Nodup := by decide

/-- the value a call gives to one of the parameters of the constructor -/
abbrev argOf (pos : List (Attr ℝ)) (kw : NS (Attr ℝ)) (i : Fin 10) : Option (Attr ℝ) :=
  given pos kw i (initParams[i]'i.2)

private def need : Option (Attr ℝ) → Py (Attr ℝ)
  | some v => .ok v
  | none => .error .typeError

private theorem reqArg_need (p : NS (Attr ℝ)) (k : String) : reqArg p k = need (p.get? k) := by
  unfold reqArg need
  rfl

private theorem construct_bound (pos : List (Attr ℝ)) (kw : NS (Attr ℝ)) (h1 : pos.length ≤ 10)
    (h2 : ∀ k ∈ kw.keys, ∃ i, ∃ h : i < initParams.length, initParams[i] = k ∧ pos.length ≤ i) :
    construct pos kw = (do
      let dx ← need (argOf pos kw 0)
      let N ← need (argOf pos kw 1)
      let c1 ← need (argOf pos kw 2)
      let nu ← need (argOf pos kw 3)
      let k0 ← need (argOf pos kw 4)
      if attrReal k0 = 0 then .error .zeroDivisionError
      else return {
        N := attrTrunc N, c1 := attrReal c1, nu := (-1) ^ (attrTrunc N + 1) * attrReal nu, k0 := attrReal k0,
        poisson_bracket_coeff := ((argOf pos kw 5).map attrReal).getD 1,
        kappa_coeff := ((argOf pos kw 6).map attrReal).getD 1,
        dx := attrReal dx, L := 2 * Real.pi / attrReal k0,
        zonal := ((argOf pos kw 7).map attrBool).getD false,
        debug := ((argOf pos kw 8).map attrBool).getD false,
        TEST_CONSERVATION := ((argOf pos kw 9).map attrBool).getD true }) := by
  have e : ∀ i : Fin 10, NS.get? (initParams.zip pos ++ kw) (initParams[i]'i.2) = argOf pos kw i :=
    fun i => bound_get? initParams_nodup pos kw i.2
  unfold construct
  rw [bindArgs_ok initParams_nodup h1 h2]
  have e0 : NS.get? (initParams.zip pos ++ kw) "dx" = argOf pos kw 0 := e 0
  have e1 : NS.get? (initParams.zip pos ++ kw) "N" = argOf pos kw 1 := e 1
  have e2 : NS.get? (initParams.zip pos ++ kw) "c1" = argOf pos kw 2 := e 2
  have e3 : NS.get? (initParams.zip pos ++ kw) "nu" = argOf pos kw 3 := e 3
  have e4 : NS.get? (initParams.zip pos ++ kw) "k0" = argOf pos kw 4 := e 4
  have e5 : NS.get? (initParams.zip pos ++ kw) "poisson_bracket_coeff" = argOf pos kw 5 := e 5
  have e6 : NS.get? (initParams.zip pos ++ kw) "kappa_coeff" = argOf pos kw 6 := e 6
  have e7 : NS.get? (initParams.zip pos ++ kw) "zonal" = argOf pos kw 7 := e 7
  have e8 : NS.get? (initParams.zip pos ++ kw) "debug" = argOf pos kw 8 := e 8
  have e9 : NS.get? (initParams.zip pos ++ kw) "TEST_CONSERVATION" = argOf pos kw 9 := e 9
  simp only [Py.ok_bind, reqArg_need, e0, e1, e2, e3, e4, e5, e6, e7, e8, e9]

private theorem attrTrunc_spec (N : Attr ℝ) : IsIntPart (attrReal N) (attrTrunc N) := by
  have whole : ∀ z : ℤ, IsIntPart (z : ℝ) z := fun z =>
    ⟨le_rfl, by simp, fun h => by exact_mod_cast h.le, fun h => by exact_mod_cast h.le⟩
  cases N with
  | int z => exact whole z
  | bool b =>
    have := whole (if b then 1 else 0)
    unfold attrReal attrTrunc
    cases b <;> simpa using this
  | num x =>
    change IsIntPart x (if 0 ≤ x then ⌊x⌋ else ⌈x⌉)
    split
    · next h =>
      have h0 : (0 : ℝ) ≤ ⌊x⌋ := by exact_mod_cast Int.floor_nonneg.mpr h
      have h1 := Int.floor_le x
      have h2 := Int.lt_floor_add_one x
      refine ⟨by rw [abs_of_nonneg h0, abs_of_nonneg h]; exact h1, ?_, fun _ => Int.floor_nonneg.mpr h, fun h' => absurd h (by linarith)⟩
      rw [abs_lt]
      constructor <;> linarith
    · next h =>
      have h := not_le.mp h
      have h1 := Int.le_ceil x
      have h2 := Int.ceil_lt_add_one x
      have h3 : ⌈x⌉ ≤ 0 := Int.ceil_le.mpr (by simpa using h.le)
      have h0 : ((⌈x⌉ : ℤ) : ℝ) ≤ 0 := by exact_mod_cast h3
      refine ⟨by rw [abs_of_nonpos h0, abs_of_neg h]; linarith, ?_, fun h' => absurd h (by linarith), fun _ => h3⟩
      rw [abs_lt]
      constructor <;> linarith

/-- **C130**: what `HW(*pos, **kw)` does, for every call.  A call that fits the signature (ten
parameters, the first five required) with `k0 ≠ 0` stores the values given, in whatever order and
whether by position or by name; `N` is truncated to an integer, `nu` gets the sign
`(-1)^(N+1)` that makes the term `nu ∇^(2N)` a damping, and parameters left out are
`poisson_bracket_coeff = 1`, `kappa_coeff = 1`, `zonal = False`, `debug = False`,
`TEST_CONSERVATION = True`. -/
theorem C130_arguments (pos : List (Attr ℝ)) (kw : NS (Attr ℝ)) (h : FitsSignature initParams 5 pos kw) :
    ∃ dx N c1 nu k0, argOf pos kw 0 = some dx ∧ argOf pos kw 1 = some N ∧ argOf pos kw 2 = some c1 ∧
      argOf pos kw 3 = some nu ∧ argOf pos kw 4 = some k0 ∧
      (attrReal k0 = 0 → construct pos kw = .error .zeroDivisionError) ∧
      (attrReal k0 ≠ 0 → ∃ o, construct pos kw = .ok o ∧ o.dx = attrReal dx ∧ IsIntPart (attrReal N) o.N ∧ o.c1 = attrReal c1 ∧
        o.nu = (if Even o.N then - attrReal nu else attrReal nu) ∧ o.k0 = attrReal k0 ∧ o.L = 2 * Real.pi / o.k0 ∧
        o.poisson_bracket_coeff = (match argOf pos kw 5 with | some v => attrReal v | none => 1) ∧
        o.kappa_coeff = (match argOf pos kw 6 with | some v => attrReal v | none => 1) ∧
        o.zonal = (match argOf pos kw 7 with | some v => attrBool v | none => false) ∧
        o.debug = (match argOf pos kw 8 with | some v => attrBool v | none => false) ∧
        o.TEST_CONSERVATION = (match argOf pos kw 9 with | some v => attrBool v | none => true)) := by
  have hc : ∀ i : Fin 10, (i : ℕ) < 5 → ∃ v, argOf pos kw i = some v := fun i hi =>
    Option.isSome_iff_exists.mp (h.complete i i.2 hi)
  obtain ⟨dx, e0⟩ := hc 0 (by decide)
  obtain ⟨N, e1⟩ := hc 1 (by decide)
  obtain ⟨c1, e2⟩ := hc 2 (by decide)
  obtain ⟨nu, e3⟩ := hc 3 (by decide)
  obtain ⟨k0, e4⟩ := hc 4 (by decide)
  refine ⟨dx, N, c1, nu, k0, e0, e1, e2, e3, e4, ?_, ?_⟩
  · intro h0
    rw [construct_bound pos kw h.positional h.keywords, e0, e1, e2, e3, e4]
    simp only [need, Py.ok_bind]
    rw [if_pos h0]
  · intro h0
    have hok := construct_bound pos kw h.positional h.keywords
    rw [e0, e1, e2, e3, e4] at hok
    simp only [need, Py.ok_bind] at hok
    rw [if_neg h0] at hok
    refine ⟨_, hok, rfl, attrTrunc_spec N, rfl, ?_, rfl, rfl, ?_, ?_, ?_, ?_, ?_⟩
    · dsimp only
      split
      · next he => rw [Odd.neg_one_zpow he.add_one, neg_one_mul]
      · next he => rw [Even.neg_one_zpow (Int.not_even_iff_odd.mp he).add_one, one_mul]
    · cases argOf pos kw 5 <;> rfl
    · cases argOf pos kw 6 <;> rfl
    · cases argOf pos kw 7 <;> rfl
    · cases argOf pos kw 8 <;> rfl
    · cases argOf pos kw 9 <;> rfl

/-- **C130**: every other call raises `TypeError`. -/
theorem C130_rejects (pos : List (Attr ℝ)) (kw : NS (Attr ℝ)) (h : ¬ FitsSignature initParams 5 pos kw) :
    construct pos kw = .error .typeError := by
  by_cases h1 : pos.length ≤ initParams.length ∧
      ∀ k ∈ kw.keys, ∃ i, ∃ h : i < initParams.length, initParams[i] = k ∧ pos.length ≤ i
  · rw [construct_bound pos kw h1.1 h1.2]
    have hc : ¬ ((argOf pos kw 0).isSome ∧ (argOf pos kw 1).isSome ∧ (argOf pos kw 2).isSome ∧ (argOf pos kw 3).isSome ∧
        (argOf pos kw 4).isSome) := by
      rintro ⟨a0, a1, a2, a3, a4⟩
      refine h ⟨h1.1, h1.2, fun i hi h5 => ?_⟩
      interval_cases i
      · exact a0
      · exact a1
      · exact a2
      · exact a3
      · exact a4
    cases e0 : argOf pos kw 0 with
    | none => rfl
    | some v0 =>
      cases e1 : argOf pos kw 1 with
      | none => rfl
      | some v1 =>
        cases e2 : argOf pos kw 2 with
        | none => rfl
        | some v2 =>
          cases e3 : argOf pos kw 3 with
          | none => rfl
          | some v3 =>
            cases e4 : argOf pos kw 4 with
            | none => rfl
            | some v4 => exact absurd ⟨by rw [e0]; rfl, by rw [e1]; rfl, by rw [e2]; rfl, by rw [e3]; rfl, by rw [e4]; rfl⟩ hc
  · unfold construct
    rw [bindArgs_error h1]
    rfl

/-- **C130**: the same values give the same simulation, however they are passed. -/
theorem C130_same_values (pos pos' : List (Attr ℝ)) (kw kw' : NS (Attr ℝ)) (h : FitsSignature initParams 5 pos kw)
    (h' : FitsSignature initParams 5 pos' kw') (e : ∀ i, argOf pos kw i = argOf pos' kw' i) :
    construct pos kw = construct pos' kw' := by
  rw [construct_bound pos kw h.positional h.keywords, construct_bound pos' kw' h'.positional h'.keywords]
  simp only [e]

/-- **C130**, the calls of `run` and `run2`, `HW(**physics_params, debug=debug)`: if the object is
created, with `0 ≤ N`, it is the simulation `hwOf` of the theorems about the run functions; the
flag `debug` plays no part. -/
theorem C130_run (b : Backend) (p : NS (Attr ℝ)) (debug : Bool) {hw : HW}
    (hhw : hwOf b p = .ok hw) {k0 : Attr ℝ} (hk : p.get? "k0" = some k0) (h0 : attrReal k0 ≠ 0) :
    ∃ o, construct [] (p ++ [("debug", .bool debug)]) = .ok o ∧ 0 ≤ o.N ∧ o.toHW b = hw := by
  unfold hwOf at hhw
  split at hhw
  · cases hhw
  · next hkeys =>
    simp only [List.any_eq_true, decide_eq_true_eq, not_exists, not_and, not_not] at hkeys
    have get : ∀ k, k ≠ "debug" → NS.get? (p ++ [("debug", (Attr.bool debug : Attr ℝ))]) k = p.get? k := by
      intro k hk
      rw [NS.get?_append]
      have : NS.get? [("debug", (Attr.bool debug : Attr ℝ))] k = none := by
        rw [NS.get?_cons, if_neg (Ne.symm hk)]
        rfl
      rw [this, Option.or_none]
    have tst : p.get? "TEST_CONSERVATION" = none := by
      cases e : p.get? "TEST_CONSERVATION" with
      | none => rfl
      | some v => exact absurd (hkeys _ (NS.get?_isSome.mp (by rw [e]; rfl))) (by decide)
    unfold reqArg at hhw
    cases e0 : p.get? "dx" with
    | none => rw [e0] at hhw; cases hhw
    | some dx =>
    cases e1 : p.get? "N" with
    | none => rw [e0, e1] at hhw; cases hhw
    | some N =>
    cases hN : attrNat N with
    | error e => rw [e0, e1] at hhw; simp only [Py.ok_bind, hN] at hhw; cases hhw
    | ok n =>
    cases e2 : p.get? "c1" with
    | none => rw [e0, e1, e2] at hhw; simp only [Py.ok_bind, hN] at hhw; cases hhw
    | some c1 =>
    cases e3 : p.get? "nu" with
    | none => rw [e0, e1, e2, e3] at hhw; simp only [Py.ok_bind, hN] at hhw; cases hhw
    | some nu =>
    rw [e0, e1, e2, e3, hk] at hhw
    simp only [Py.ok_bind, hN] at hhw
    have hnN : attrTrunc N = n := by
      unfold attrNat at hN
      split at hN
      · injection hN with hN
        subst hN
        rfl
      · cases hN
    have hbind : bindArgs initParams [] (p ++ [("debug", Attr.bool debug)]) = .ok (p ++ [("debug", .bool debug)]) := by
      refine bindArgs_ok initParams_nodup (Nat.zero_le _) (fun k hk => ?_)
      have hm : k ∈ initParams := by
        have : k ∈ p.keys ∨ k = "debug" := by
          simpa [NS.keys] using hk
        rcases this with h | rfl
        · have := hkeys k h
          revert this
          simp only [hwArgs, initParams, List.mem_cons, List.not_mem_nil, or_false]
          tauto
        · decide
      obtain ⟨i, hi, e⟩ := List.getElem_of_mem hm
      exact ⟨i, hi, e, Nat.zero_le _⟩
    unfold construct
    rw [hbind]
    simp only [Py.ok_bind]
    unfold reqArg
    rw [get "dx" (by decide), get "N" (by decide), get "c1" (by decide), get "nu" (by decide), get "k0" (by decide),
      get "poisson_bracket_coeff" (by decide), get "kappa_coeff" (by decide), get "zonal" (by decide),
      get "TEST_CONSERVATION" (by decide), e0, e1, e2, e3, hk, tst]
    simp only [Py.ok_bind]
    rw [if_neg h0]
    refine ⟨_, rfl, ?_, ?_⟩
    · change 0 ≤ attrTrunc N
      rw [hnN]
      exact Int.natCast_nonneg n
    · injection hhw with hhw
      rw [← hhw]
      unfold HWObject.toHW HW.init
      simp only [hnN, Int.toNat_natCast]
      congr 1

/-! ## non-vacuity -/

/-- `HW(0.5, 3, nu=0.1, k0=0.15, c1=1, zonal=True)` -/
theorem demo_call : FitsSignature (V := Attr ℝ) initParams 5 [.num (1 / 2), .int 3]
    [("nu", .num (1 / 10)), ("k0", .num (3 / 20)), ("c1", .int 1), ("zonal", .bool true)] where
  positional := by decide
  keywords := by
    intro k hk
    simp only [NS.keys, List.map_cons, List.map_nil, List.mem_cons, List.not_mem_nil, or_false] at hk
    rcases hk with rfl | rfl | rfl | rfl
    · exact ⟨3, by decide, rfl, by decide⟩
    · exact ⟨4, by decide, rfl, by decide⟩
    · exact ⟨2, by decide, rfl, by decide⟩
    · exact ⟨7, by decide, rfl, by decide⟩
  complete := by
    intro i hi h5
    interval_cases i <;> rfl

example : ∃ o, construct [.num (1 / 2), .int 3]
      [("nu", .num (1 / 10)), ("k0", .num (3 / 20)), ("c1", .int 1), ("zonal", .bool true)] = .ok o ∧
    o.nu = 1 / 10 ∧ o.c1 = 1 ∧ o.kappa_coeff = 1 ∧ o.zonal = true := by
  obtain ⟨dx, N, c1, nu, k0, e0, e1, e2, e3, e4, -, H⟩ := C130_arguments _ _ demo_call
  cases e1
  cases e2
  cases e3
  cases e4
  obtain ⟨o, h1, -, h2, h3, h4, -, -, -, h5, h6, -⟩ := H (by norm_num [attrReal])
  refine ⟨o, h1, ?_, by rw [h3]; norm_num [attrReal], h5, h6⟩
  have hN : o.N = 3 := by
    have h2 : |(3 : ℝ) - o.N| < 1 := by simpa [attrReal] using h2.2.1
    have h2 : |(3 : ℤ) - o.N| < 1 := by exact_mod_cast h2
    rw [abs_lt] at h2
    omega
  have : ¬ Even o.N := by rw [hN]; decide
  rw [h4, if_neg this]
  rfl

/-- the same call with all arguments by name -/
example : construct [.num (1 / 2), .int 3]
      [("nu", .num (1 / 10)), ("k0", .num (3 / 20)), ("c1", .int 1), ("zonal", .bool true)] =
    construct [] [("zonal", .bool true), ("c1", .int 1), ("nu", .num (1 / 10)), ("N", .int 3), ("k0", .num (3 / 20)),
      ("dx", .num (1 / 2))] := by
  refine C130_same_values _ _ _ _ demo_call ⟨by decide, fun k hk => ?_, fun i hi h5 => ?_⟩ (fun i => ?_)
  · obtain ⟨i, hi, e⟩ := List.getElem_of_mem (show k ∈ initParams by revert k; decide)
    exact ⟨i, hi, e, Nat.zero_le _⟩
  · interval_cases i <;> rfl
  · obtain ⟨i, hi⟩ := i
    interval_cases i <;> rfl

/-- a keyword that is no parameter -/
example : construct [] [("dx", .num 1), ("n", .int 3)] = .error .typeError :=
  C130_rejects _ _ fun h => by
    obtain ⟨i, hi, e, -⟩ := h.keywords "n" (by decide)
    have : ∀ i : Fin 10, initParams[i]'i.2 ≠ "n" := by decide
    exact this ⟨i, hi⟩ e

/-- `dx` given twice -/
example : construct [.num 1] [("dx", .num 1)] = .error .typeError :=
  C130_rejects _ _ fun h => by
    obtain ⟨i, hi, e, h1⟩ := h.keywords "dx" (by decide)
    have : ∀ i : Fin 10, 1 ≤ i.1 → initParams[i]'i.2 ≠ "dx" := by decide
    exact this ⟨i, hi⟩ h1 e

example : ∃ o, construct [] [("dx", .num 1), ("N", .int 3), ("c1", .num 1), ("nu", .num (1 / 100)), ("k0", .num (3 / 20)),
    ("debug", .bool false)] = .ok o ∧ 0 ≤ o.N ∧ o.toHW numpyBackend = HW.init numpyBackend 1 3 1 (1 / 100) (3 / 20) :=
  C130_run numpyBackend [("dx", .num 1), ("N", .int 3), ("c1", .num 1), ("nu", .num (1 / 100)), ("k0", .num (3 / 20))] false
    rfl rfl (by norm_num [attrReal])

end Verif.Props
