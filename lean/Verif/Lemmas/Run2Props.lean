import Verif.Lemmas.Run2File
import Verif.Model.RunPropsHW
import Verif.Lemmas.Spectral
import Verif.Lemmas.HWBasic
import Verif.Props.RunProperties
import Verif.Props.HWCommon

/-!
# `calculate_properties` at the end of `run2`
-/

set_option linter.unusedSectionVars false

namespace Verif

open H5IO H5 Run Run2 RunProperties Arr Props Spec

/-! ### the property functions -/

/-- on square grids every property has a value -/
theorem propValue_ok {name : String} (hname : name ∈ propertyNames) (dx c1 : ℝ) {m : ℕ} (hm : 0 < m) {n p o : Arr ℝ}
    (hn : n.h = m ∧ n.w = m) (hp : p.h = m ∧ p.w = m) (ho : o.h = m ∧ o.w = m) :
    ∃ v, propValue name dx c1 n p o = .ok v := by
  have : NeZero m := ⟨hm.ne'⟩
  rw [← ofField_toFld hn.1 hn.2, ← ofField_toFld hp.1 hp.2, ← ofField_toFld ho.1 ho.2]
  generalize (toFld n : Fld m m) = n
  generalize (toFld p : Fld m m) = p
  generalize (toFld o : Fld m m) = o
  simp only [propertyNames, List.mem_cons, List.not_mem_nil, or_false] at hname
  rcases hname with rfl | rfl | rfl | rfl | rfl | rfl | rfl | rfl
  · exact ⟨_, gamma_n_ofField n p dx⟩
  · exact ⟨_, gamma_n_spectral_ofField n p dx⟩
  · exact ⟨_, gamma_c_ofField n p c1 dx⟩
  · exact ⟨_, energy_ofField n p dx⟩
  · exact ⟨_, energy_N_ofField n⟩
  · exact ⟨_, energy_V_ofField p dx⟩
  · exact ⟨_, enstrophy_ofField n o dx⟩
  · exact ⟨_, enstrophy_phi_ofField n p dx⟩

/-- the two tables of property functions agree on the eight properties -/
theorem propertyFncs_eq {name : String} (hname : name ∈ propertyNames) :
    propertyFncs name = some fun n p o dx c1 => match n, p, o with
      | .arr n, .arr p, .arr o => propValue name dx c1 n p o
      | _, _, _ => .error .typeError := by
  simp only [propertyNames, List.mem_cons, List.not_mem_nil, or_false] at hname
  rcases hname with rfl | rfl | rfl | rfl | rfl | rfl | rfl | rfl <;> rfl

theorem not_propertyName {k : String} (h : k ∈ ["time", "density", "omega", "phi"]) : k ∉ propertyNames := by
  revert k; decide

theorem fullres_not_propertyName (name : String) : "fullres_" ++ name ∉ propertyNames := by
  intro h
  simp only [propertyNames, List.mem_cons, List.not_mem_nil, or_false] at h
  rcases h with h | h | h | h | h | h | h | h <;>
  · have := congrArg String.toList h
    simp at this

/-! ### the last call -/

variable {α β : Type} [Casts α β] [Zero α] [Inhabited α] [Inhabited β] [FloatOps α]

/-- what the call of `calculate_properties` at the end of `run2` does to the file -/
theorem does_finalProps {E : Env2 α β} {a : Args2 α} (hp : ∀ name ∈ a.properties, name ∈ propertyNames)
    (hb : 1 ≤ a.buffer_length) {σ : St α β} {f : H5 α β} (hσ : σ.fs a.output_path = some f) {k0 x_save c1 : Attr α}
    {n p o : List (Cell β)} (hf : RunFile f k0 x_save c1 n p o)
    (hval : ∀ name ∈ a.properties, ∀ i (h : i < n.length),
      ∃ v, E.props.value name (E.props.dx k0 x_save) c1 n[i] (p[i]'(by rw [hf.phi_length]; exact h))
        (o[i]'(by rw [hf.omega_length]; exact h)) = .ok v) :
    (finalProps E a σ).1 = .ok (some ()) ∧ ∃ f', (finalProps E a σ).2.fs a.output_path = some f' ∧ f'.attrs = f.attrs ∧
      (∀ k, k ∉ a.properties → f'.dsets k = f.dsets k) ∧
      ∀ name ∈ a.properties, ∃ vs : List α, f'.dsets name = some (.flat (vs.map Casts.f32)) ∧
        ∃ h : vs.length = n.length, ∀ i (hi : i < n.length),
          E.props.value name (E.props.dx k0 x_save) c1 n[i] (p[i]'(by rw [hf.phi_length]; exact hi))
            (o[i]'(by rw [hf.omega_length]; exact hi)) = .ok vs[i] := by
  by_cases he : a.properties = []
  · have : finalProps E a σ = (.ok (some ()), σ) := by
      unfold finalProps
      rw [he]
      rfl
    rw [this]
    exact ⟨rfl, f, hσ, rfl, fun _ _ => rfl, by rw [he]; simp⟩
  · obtain ⟨σ', f', e1, e2, -, e4, -⟩ := C56_batch_independent E.props a.output_path σ f hσ k0 x_save c1 n p o hf
      a.properties ⟨fun h => not_propertyName (by decide) (hp _ h), fun h => not_propertyName (by decide) (hp _ h),
        fun h => not_propertyName (by decide) (hp _ h)⟩ true (fun name _ h => hval name h) a.buffer_length hb
    have hr : finalProps E a σ = (.ok (some ()), σ') := by
      unfold finalProps
      have : (!a.properties.isEmpty) = true := by simpa using he
      simp only [this, if_true]
      rw [IOM.bind_ok e1]
      rfl
    rw [hr]
    obtain ⟨l, -, -, hk, -⟩ := keeps_calculate (path := a.output_path) (fs := σ.fs) (f0 := f) (names := a.properties)
      E.props a.buffer_length true σ (Keeps.refl hσ)
    rw [e1] at hk
    obtain ⟨g, g1, g2, g3⟩ := hk.file
    have hg : g = f' := Option.some.inj (g1.symm.trans e2)
    subst hg
    exact ⟨rfl, g, e2, g2, g3, fun name hn => e4 name hn (hp name hn) (.inl rfl)⟩

/-- the state of a new file when `run2` calls `calculate_properties` -/
theorem fresh2_before {E : Env2 α β} {a : Args2 α} {σ : St α β} {hw : Solver α} {ns m fuel : ℕ}
    {S : ℕ → NS (Cell α)} (h : FreshRun2 E a σ hw ns m S) (hfuel : m < fuel) :
    ∃ σ2 f, run2 E a fuel σ = finalProps E a σ2 ∧ σ2.fs a.output_path = some f ∧
      (∀ k, f.attrs k = (runParams2 a ns).get? k) ∧
      (∀ k ∈ "time" :: fieldList, ∃ rows, f.dsets k = some (.rows (rowShape ns k) rows) ∧
        List.Forall₂ (fun fr row => IsFrameRow E.toEnv a.downsample_factor k fr.1 fr.2 row)
          (written2 a (timeAt E a (FloatOps.ofInt 0) m) (frames2 E a S m)) rows) ∧
      (∀ name ∈ a.properties, ∃ rows, f.dsets ("fullres_" ++ name) = some (.rows .one rows) ∧
        List.Forall₂ (fun fr row => ∃ x, IsPropValue E a name fr.2 x ∧ row = .num (Casts.f32 x))
          (written2 a (timeAt E a (FloatOps.ofInt 0) m) (frames2 E a S m)) rows) ∧
      ∃ s params t0 σ1, setup2 E a σ = (.ok (some (s, params, t0)), σ1) ∧
        simulate2 E a s params t0 fuel σ1 = (.ok (some ()), σ2) := by
  obtain ⟨σ1, f1, buf1, i1, e1, hI1, e2, e3⟩ := setup2_fresh h.fresh h.buffer h.saves h.nodup h.props h.init
  obtain ⟨phi, hphi, hS0⟩ := h.start
  obtain ⟨f', buf', i', σ2, g1, g2, g3, g4, -, g6⟩ := run2_before h.path h.snaps h.early h.saves h.props hfuel
    h.solver (p := a.plasma0) (om := a.omega0) (by rfl) (dxa := .num a.dx) (by rfl) hphi hS0 h.traj h.shaped h.stops hI1
    (by rw [e3, upd_same]) e2
  have hall : afterSaves a.buffer_length (runFile2 a ns) (zeroBuffer2 (α := α) a.buffer_length ns ns a.properties) 0
      (allSaves2 E a S m) = (f', buf', i') := by
    unfold allSaves2
    rw [afterSaves_append, e1, g1]
  have hI := inv_runFile2 (β := β) a ns h.buffer
  obtain ⟨r1, r2⟩ := rows2_of h.saves hI (allSaves2_ok h) hall (timeAt E a (FloatOps.ofInt 0) m)
  refine ⟨σ2, _, g3, g4, ?_, ?_, ?_, _, _, _, _, e2, g6⟩
  · intro k
    rw [lastFile2_attrs]
    have := afterSaves_attrs (L := a.buffer_length) (allSaves2 E a S m) (runFile2 a ns : H5 α β)
      (zeroBuffer2 (α := α) a.buffer_length ns ns a.properties) 0
    rw [hall] at this
    simp only at this
    rw [this, runFile2_attrs]
  · intro k hk
    obtain ⟨rows, q1, q2⟩ := r1 k hk
    refine ⟨rows, ?_, q2⟩
    rw [q1]
    unfold H5.rowsOf
    rw [runFile2_rows a ns hk]
    rfl
  · intro name hn
    obtain ⟨rows, q1, q2⟩ := r2 name hn
    refine ⟨rows, ?_, q2⟩
    rw [q1]
    unfold H5.rowsOf
    rw [runFile2_fullres a ns hn]
    rfl

/-- the state of a continued file when `run2` calls `calculate_properties` -/
theorem continue2_before {E : Env2 α β} {a : Args2 α} {σ : St α β} {f : H5 α β} {hw : Solver α} {ns m fuel : ℕ}
    {S : ℕ → NS (Cell α)} {d o p : Arr α} {t0 : α} {params : NS (Attr α)}
    (h : ContinuedRun2 E a σ f hw ns d o p t0 params m S) (hfuel : m < fuel) :
    ∃ σ2 f', run2 E a fuel σ = finalProps E a σ2 ∧ σ2.fs a.output_path = some f' ∧ f'.attrs = f.attrs ∧
      (∀ k ∈ "time" :: fieldList, ∃ rows, f'.dsets k = some (.rows (rowShape ns k) (f.rowsOf k ++ rows)) ∧
        List.Forall₂ (fun fr row => IsFrameRow E.toEnv a.downsample_factor k fr.1 fr.2 row)
          (written2 a (timeAt E a t0 m) (stepFrames2 E a t0 S m)) rows) ∧
      (∀ name ∈ a.properties, ∃ rows,
        f'.dsets ("fullres_" ++ name) = some (.rows .one (f.rowsOf ("fullres_" ++ name) ++ rows)) ∧
        List.Forall₂ (fun fr row => ∃ x, IsPropValue E a name fr.2 x ∧ row = .num (Casts.f32 x))
          (written2 a (timeAt E a t0 m) (stepFrames2 E a t0 S m)) rows) := by
  obtain ⟨σ1, e1, e2⟩ := setup2_continue h.toContinuedCall2
  obtain ⟨phi, dxa, hdx, hphi, hS0⟩ := h.start
  have hI := inv2_of h.buffer h.output h.propRows
  obtain ⟨f', buf', i', σ2, g1, g2, g3, g4, -, -⟩ := run2_before h.path h.snaps h.early h.saves h.props hfuel
    h.solver (p := [("density", .arr d), ("omega", .arr o), ("phi", .arr p), ("age", .num t0)]) (om := .arr o) (by rfl)
    hdx hphi (by rw [hS0]; rfl) h.traj h.shaped h.stops hI
    (by rw [e2, h.file]) e1
  have hfr := loopSaves2_ok (t0 := t0) h.saves h.props h.shaped
  obtain ⟨r1, r2⟩ := rows2_of h.saves hI hfr g1 (timeAt E a t0 m)
  refine ⟨σ2, _, g3, g4, ?_, r1, r2⟩
  rw [lastFile2_attrs]
  have := afterSaves_attrs (L := a.buffer_length) (loopSaves2 E a t0 S 0 m) f
    (zeroBuffer2 (α := α) a.buffer_length ns ns a.properties) 0
  rw [g1] at this
  exact this

end Verif
