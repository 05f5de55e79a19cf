import Verif.Lemmas.Stack
import Verif.Model.RunPropsHW
import Verif.Props.RunProperties
import Verif.Props.Diagnostics

/-!
# C95: stacks of frames

Every function that is documented for arrays `(..., y, x)` works frame by frame.
-/

set_option linter.unusedSectionVars false

namespace Verif.Props

open Spec Stacked

/-! ## Stencils -/

section stencils

variable {α : Type} [Inhabited α] [Add α] [Sub α] [Mul α] [Div α] [NatCast α] [Pow α ℕ]

theorem fr_eq {α : Type} [Inhabited α] {B : List ℕ} {x : Nd α} {h w : ℕ} (e : x.shape = B ++ [h, w]) : fr x = frame h w x := by
  funext b; exact fr_of e b

/-- **C95 (stencils).** For every scalar type (no law is used), every leading
shape `B` and every grid, `periodic_laplace_N` and `periodic_gradient` with a
negative axis act on each frame of the stack separately. -/
theorem C95_stencils (B : List ℕ) (h w : ℕ) (x : Nd α) (hx : x.shape = B ++ [h, w]) (dx : α) :
    (∀ N, FramePerFrame B (periodic_laplace_N x dx N)
      fun b => NumpyGradients.periodic_laplace_N (frame h w x b) dx N) ∧
    ∀ axis : ℤ, axis < 0 → FramePerFrame B (periodic_gradient x dx axis)
      fun b => NumpyGradients.periodic_gradient (frame h w x b) dx axis := by
  rw [← fr_eq hx]
  exact ⟨fun N => (per_laplace_N dx N ⟨h, w, hx⟩).toFrame,
    fun axis ha => (per_periodic_gradient ⟨h, w, hx⟩ dx axis ha).toFrame⟩

/-- **C95 (axes counted from the front).** With `axis = 0` a stack of rank 3 is
not differentiated frame by frame: the leading axis is padded and differentiated
and the last axis keeps its padding. -/
theorem C95_axis0_violated (k h w : ℕ) (hk : 0 < k) (hh : 0 < h) (hw : 0 < w) (x : Nd α) (hx : x.shape = [k, h, w])
    (dx : α) : (∃ y, periodic_gradient x dx 0 = .ok y ∧ y.shape = [k, h, w + 2]) ∧
    ¬ FramePerFrame [k] (periodic_gradient x dx 0) fun b => NumpyGradients.periodic_gradient (frame h w x b) dx 0 := by
  have e : ∃ y, periodic_gradient x dx 0 = .ok y ∧ y.shape = [k, h, w + 2] := by
    unfold periodic_gradient
    rw [if_neg (by norm_num)]
    have e1 : x.rank = 3 := by unfold Nd.rank; rw [hx]; rfl
    simp only [Py.ok_bind, e1]
    unfold Nd.padWrap
    rw [if_neg (by rw [hx]; simp), hx,
      if_neg (by simp [List.replicate]; omega)]
    simp only [Py.ok_bind]
    unfold gradient centered
    rw [if_pos rfl]
    simp only [Nd.slFirst, List.replicate, List.zipWith_cons_cons, List.zipWith_nil_left, Py.ok_bind, Arr.len_s2,
      Arr.len_s1m1, Arr.len_s0m2, Nd.bzip, Nd.rank, List.length_cons, List.length_nil, Nat.sub_self, lead_zero, Nd.zip,
      Nd.bshape, Arr.bdim_self]
    refine ⟨_, rfl, ?_⟩
    change [1 + k + 1 - 2, 1 + h + 1 - 2, 1 + w + 1] = _
    simp only [List.cons.injEq, and_true]
    omega
  refine ⟨e, fun hF => ?_⟩
  obtain ⟨y, e1, e2⟩ := e
  rw [e1] at hF
  obtain ⟨h', w', e3, hF⟩ := hF
  rw [e2] at e3
  simp only [List.cons_append, List.nil_append, List.cons.injEq, and_true, true_and] at e3
  have := hF [0] (.cons hk .nil)
  have hz : NeZero h := ⟨hh.ne'⟩
  have hz' : NeZero w := ⟨hw.ne'⟩
  have hf : frame h w x [0] = Arr.ofField (Arr.field (frame h w x [0])) := (Arr.ofField_field _).symm
  have hg : ∃ g, NumpyGradients.periodic_gradient (frame h w x [0]) dx 0 = .ok g ∧ g.w = w := by
    unfold NumpyGradients.periodic_gradient
    rw [if_neg (by norm_num)]
    unfold Arr.padWrap
    rw [if_neg (by unfold frame; simp only [Arr.tab_h, Arr.tab_w]; omega)]
    simp only [Py.ok_bind]
    unfold NumpyGradients.gradient
    rw [if_pos rfl]
    simp only [mul_one, Arr.sl_21, Arr.sl_01, ok_sub, ok_divs]
    exact ⟨_, rfl, rfl⟩
  obtain ⟨g, hg1, hg2⟩ := hg
  dsimp only at this
  rw [hg1] at this
  injection this with this
  have : g.w = w' := by rw [this]; rfl
  omega

end stencils

/-! ## Diagnostics -/

/-- **C95 (diagnostics).** For every leading shape `B`, on stacks of fields each
diagnostic is computed for each frame separately — the same numbers, and the
same exceptions, as for the frames alone. -/
theorem C95_diagnostics (B : List ℕ) (h w h' w' : ℕ) (n p : Nd ℝ) (hn : n.shape = B ++ [h, w])
    (hp : p.shape = B ++ [h', w']) (dx c1 : ℝ) :
    NumberPerFrame B (get_gamma_n n p dx) (fun b => Properties.get_gamma_n (frame h w n b) (frame h' w' p b) dx) ∧
    NumberPerFrame B (get_gamma_c n p c1 dx) (fun b => Properties.get_gamma_c (frame h w n b) (frame h' w' p b) c1 dx) ∧
    NumberPerFrame B (get_energy n p dx) (fun b => Properties.get_energy (frame h w n b) (frame h' w' p b) dx) ∧
    NumberPerFrame B (get_enstrophy n p dx) (fun b => Properties.get_enstrophy (frame h w n b) (frame h' w' p b) dx) ∧
    NumberPerFrame B (get_enstrophy_phi n p dx)
      (fun b => Properties.get_enstrophy_phi (frame h w n b) (frame h' w' p b) dx) ∧
    NumberPerFrame B (get_gamma_n_spectrally n p dx)
      (fun b => Properties.get_gamma_n_spectrally (frame h w n b) (frame h' w' p b) dx) ∧
    NumberPerFrame B (get_energy_N_spectrally n) (fun b => Properties.get_energy_N_spectrally (frame h w n b)) ∧
    NumberPerFrame B (get_energy_V_spectrally p dx) (fun b => Properties.get_energy_V_spectrally (frame h' w' p b) dx) := by
  rw [← fr_eq hn, ← fr_eq hp]
  have sn : IsStk B n := ⟨h, w, hn⟩
  have sp : IsStk B p := ⟨h', w', hp⟩
  exact ⟨(per_gamma_n sn sp dx).toNumber, (per_gamma_c sn sp c1 dx).toNumber, (per_energy sn sp dx).toNumber,
    (per_enstrophy sn sp dx).toNumber, (per_enstrophy_phi sn sp dx).toNumber, (per_gamma_n_spectral sn sp dx).toNumber,
    (per_energy_N sn).toNumber, (per_energy_V sp dx).toNumber⟩

/-- a small stack: leading shape `(2, 3)`, frames of shape `(4, 4)` -/
def demoNd : Nd ℝ := ⟨[2, 3, 4, 4], fun idx => ((Nd.ravel [2, 3, 4, 4] idx : ℕ) : ℝ)⟩

example := C95_axis0_violated 3 4 4 (by decide) (by decide) (by decide) ⟨[3, 4, 4], demoNd.get⟩ rfl (1 / 2)
example := C95_stencils [2, 3] 4 4 demoNd rfl (1 / 2)
example := C95_diagnostics [2, 3] 4 4 4 4 demoNd (demoNd.map (· ^ 2)) rfl rfl (1 / 2) 1

/-- **C95 (spectra).** The spectra in `k_y` and the wave numbers they belong to,
frame by frame. -/
theorem C95_spectra (B : List ℕ) (h w h' w' : ℕ) (n p : Nd ℝ) (hn : n.shape = B ++ [h, w])
    (hp : p.shape = B ++ [h', w']) (dx : ℝ) :
    RowPerFrame B ((get_gamma_n_ky n p dx).map Prod.snd)
      (fun b => (Properties.get_gamma_n_ky (frame h w n b) (frame h' w' p b) dx).map Prod.snd) ∧
    (∀ ky r, get_gamma_n_ky n p dx = .ok (ky, r) → ∀ b, Nd.InRange B b →
      ∃ r', Properties.get_gamma_n_ky (frame h w n b) (frame h' w' p b) dx = .ok (ky, r')) ∧
    RowPerFrame B (get_energy_N_ky n) (fun b => Properties.get_energy_N_ky (frame h w n b)) ∧
    RowPerFrame B (get_energy_V_ky p dx) (fun b => Properties.get_energy_V_ky (frame h' w' p b) dx) := by
  rw [← fr_eq hn, ← fr_eq hp]
  have sn : IsStk B n := ⟨h, w, hn⟩
  have sp : IsStk B p := ⟨h', w', hp⟩
  have hk := per_gamma_n_ky sn sp dx
  refine ⟨Per.toRow ?_, ?_, (per_energy_N_ky sn).toRow, (per_energy_V_ky sp dx).toRow⟩
  · revert hk
    generalize get_gamma_n_ky n p dx = m
    intro hk
    cases m with
    | error e => exact fun b hb => congrArg (Except.map Prod.snd) (hk b hb)
    | ok y => exact ⟨hk.1, fun b hb => congrArg (Except.map Prod.snd) (hk.2 b hb)⟩
  · intro ky r hr b hb
    rw [hr] at hk
    exact ⟨_, hk.2 b hb⟩

example := C95_spectra [2, 3] 4 4 4 4 demoNd (demoNd.map (· ^ 2)) rfl rfl (1 / 2)

/-- **C95 (fields and sinks).** The hyperdiffusion field, the zonal transform
and the sinks `DE`, `DU`, frame by frame. -/
theorem C95_fields (B : List ℕ) (h w : ℕ) (n p dn dp : Nd ℝ) (hn : n.shape = B ++ [h, w]) (hp : p.shape = B ++ [h, w])
    (hdn : dn.shape = B ++ [h, w]) (hdp : dp.shape = B ++ [h, w]) (nu dx : ℝ) (N : ℕ) :
    FramePerFrame B (get_D n nu N dx) (fun b => Properties.get_D (frame h w n b) nu N dx) ∧
    FramePerFrame B (zonal_transform n) (fun b => Zonal.zonal_transform (frame h w n b)) ∧
    NumberPerFrame B (get_DE n p dn dp) (fun b => Properties.get_DE (frame h w n b) (frame h w p b)
      (.arr (frame h w dn b)) (.arr (frame h w dp b))) ∧
    NumberPerFrame B (get_DU n p dn dp) (fun b => Properties.get_DU (frame h w n b) (frame h w p b)
      (.arr (frame h w dn b)) (.arr (frame h w dp b))) ∧
    NumberPerFrame B (get_gamma_n n p dx (some dp)) (fun b => Properties.get_gamma_n (frame h w n b) (frame h w p b) dx
      (some (frame h w dp b))) := by
  rw [← fr_eq hn, ← fr_eq hp, ← fr_eq hdn, ← fr_eq hdp]
  have sn : IsStk B n := ⟨h, w, hn⟩
  have sp : IsStk B p := ⟨h, w, hp⟩
  have sdn : IsStk B dn := ⟨h, w, hdn⟩
  have sdp : IsStk B dp := ⟨h, w, hdp⟩
  exact ⟨(per_D sn nu dx N).toFrame, (per_zonal sn).toFrame, (per_DE sn sp sdn sdp).toNumber,
    (per_DU sn sp sdn sdp).toNumber, (per_gamma_n_dy sn sdp dx).toNumber⟩

example := C95_fields [2, 3] 4 4 demoNd (demoNd.map (· ^ 2)) demoNd demoNd rfl rfl rfl rfl 1 (1 / 2) 2

/-! ## Phase angles -/

/-- **C95 (phase angles), partial**: `get_delta_ky` works frame by frame on a
single frame of any shape and on a stack of rank 3 of square frames.  Missing:
other stacks, see `C95_phase_violated`. -/
theorem C95_phase_partial (B : List ℕ) (h w : ℕ) (hB : B = [] ∨ (∃ k, B = [k]) ∧ h = w) (n p : Nd ℝ)
    (hn : n.shape = B ++ [h, w]) (hp : p.shape = B ++ [h, w]) :
    RowPerFrame B (get_delta_ky n p) fun b => Properties.get_delta_ky (frame h w n b) (frame h w p b) := by
  rw [← fr_eq hn, ← fr_eq hp]
  have := (per_delta_ky (B := B) (n := n) (p := p) ⟨h, w, hn⟩ ⟨h, w, hp⟩).toRow
  have e : n.shape.getD 1 0 = wd n := by
    rw [wd_of hn, hn]
    rcases hB with rfl | ⟨⟨k, rfl⟩, rfl⟩ <;> rfl
  rw [e] at this
  exact this

example := C95_phase_partial [3] 4 4 (.inr ⟨⟨3, rfl⟩, rfl⟩) ⟨[3, 4, 4], demoNd.get⟩ ⟨[3, 4, 4], demoNd.get⟩ rfl rfl

/-- number of phase angles of one frame -/
theorem delta_length (m : ℕ) (n p : Arr ℝ) (hh : p.h = n.h) (hw : p.w = n.w) (h0 : 0 < n.h) (w0 : 0 < n.w) :
    ∃ l, deltaAt m n p = .ok l ∧ l.length = min m n.h := by
  obtain ⟨h, w, f, g, e1, e2, rfl, rfl⟩ := Arr.exists_fields n p hh hw
  rw [← e1] at h0; rw [← e2] at w0
  have : NeZero h := ⟨h0.ne'⟩
  have : NeZero w := ⟨w0.ne'⟩
  unfold deltaAt
  rw [fft2Ortho_ofField, fft2Ortho_ofField]
  simp only [Py.ok_bind]
  unfold Arr.ofField
  simp only [Arr.map_tab, ok_mul, Py.ok_bind]
  refine ⟨_, rfl, ?_⟩
  simp [Properties.meanLast]

/-- **C95 (phase angles) is violated** for stacks of rank 4 and more (the second
entry of the leading shape decides how many phase angles are returned) and for
stacks of rank 3 of non-square frames: the number of angles is not the one of
the frames. -/
theorem C95_phase_violated (B : List ℕ) (h w : ℕ) (hB : ∀ m ∈ B, 0 < m) (hh : 0 < h) (hw : 0 < w)
    (hne : min ((B ++ [h, w]).getD 1 0 / 2) h ≠ min (w / 2) h) (n p : Nd ℝ)
    (hn : n.shape = B ++ [h, w]) (hp : p.shape = B ++ [h, w]) :
    ¬ RowPerFrame B (get_delta_ky n p) fun b => Properties.get_delta_ky (frame h w n b) (frame h w p b) := by
  intro hF
  have hz : Nd.InRange B (List.replicate B.length 0) := by
    clear hne hn hp hF
    induction B with
    | nil => exact .nil
    | cons a B ih => exact .cons (hB a (by simp)) (ih fun m hm => hB m (by simp [hm]))
  obtain ⟨l, e1, e2⟩ := delta_length (w / 2) (frame h w n (List.replicate B.length 0))
    (frame h w p (List.replicate B.length 0)) rfl rfl hh hw
  obtain ⟨l', e1', e2'⟩ := delta_length (n.shape.getD 1 0 / 2) (frame h w n (List.replicate B.length 0))
    (frame h w p (List.replicate B.length 0)) rfl rfl hh hw
  have hP := (per_delta_ky (B := B) (n := n) (p := p) ⟨h, w, hn⟩ ⟨h, w, hp⟩).toRow
  rw [fr_eq hn, fr_eq hp] at hP
  revert hF hP
  generalize get_delta_ky n p = m
  intro hF hP
  cases m with
  | error e =>
    have := hF _ hz
    dsimp only at this
    rw [delta_eq] at this
    exact nomatch e1.symm.trans this
  | ok y =>
    obtain ⟨k, hs, hF⟩ := hF
    obtain ⟨k', hs', hP⟩ := hP
    have g := hF _ hz
    have g' := hP _ hz
    dsimp only at g g'
    rw [delta_eq] at g
    have g := e1.symm.trans g
    have g' := e1'.symm.trans g'
    injection g with g
    injection g' with g'
    have hl : l.length = k := by rw [g]; simp [row]
    have hl' : l'.length = k' := by rw [g']; simp [row]
    have hkk : k = k' := by
      have := hs.symm.trans hs'
      simpa using this
    rw [hn] at e2'
    change l.length = min (w / 2) h at e2
    change l'.length = min _ h at e2'
    omega

example := C95_phase_violated [1] 2 4 (by simp) (by decide) (by decide) (by decide) ⟨[1, 2, 4], demoNd.get⟩
  ⟨[1, 2, 4], demoNd.get⟩ rfl rfl
example := C95_phase_violated [2, 3] 4 4 (by simp) (by decide) (by decide) (by decide) demoNd demoNd rfl rfl

/-! ## Batches of `calculate_properties` -/

/-- the array of shape `(batch, y, x)` with the stored frames `l` -/
noncomputable def batch {β : Type} [Casts ℝ β] (h w : ℕ) (l : List (Arr β)) : Nd ℝ := Nd.stack h w (l.map (Arr.map Casts.f64))

theorem batch_shape {β : Type} [Casts ℝ β] {h w : ℕ} {l : List (Arr β)} : (batch h w l).shape = [l.length] ++ [h, w] := by
  unfold batch
  rw [stack_shape, List.length_map]

theorem frame_batch {β : Type} [Casts ℝ β] {h w : ℕ} {l : List (Arr β)} (hl : ∀ a ∈ l, a.h = h ∧ a.w = w) {i : ℕ}
    (hi : i < l.length) : fr (batch h w l) [i] = l[i].map Casts.f64 := by
  unfold batch
  rw [frame_stack (h := h) (w := w) (l := l.map (Arr.map Casts.f64)) (i := i) ?_ (by simpa using hi)]
  · simp
  · intro a ha
    obtain ⟨b, hb, rfl⟩ := List.mem_map.mp ha
    exact hl b hb

/-- **C95 (batches).** For every non-empty batch of frames of equal shape and
each of the eight properties, the value of the property function on the batch
`(batch, y, x)` is the list of its values on the frames: `calculate_properties`
may hand whole batches to the property functions. -/
theorem C95_batches {β : Type} [Inhabited β] [Casts ℝ β] (h w : ℕ) (ns ps os : List (Arr β)) (hlp : ps.length = ns.length) (hlo : os.length = ns.length)
    (h0 : ns ≠ []) (hsh : ∀ a, a ∈ ns ∨ a ∈ ps ∨ a ∈ os → a.h = h ∧ a.w = w) (name : String)
    (hname : name ∈ Spec.propertyTable) (dx : ℝ) (c1 : Attr ℝ) :
    RunProperties.batchValues (RunProperties.hwProps.value name dx c1) (ns.map Cell.arr) (ps.map Cell.arr)
        (os.map Cell.arr)
      = (RunProperties.propBatch name dx (attrReal c1) (batch h w ns) (batch h w ps) (batch h w os)).map
          fun y => (List.range ns.length).map fun i => y.get [i] := by
  have key : ∀ (m : Py (Nd ℝ)) (G : Arr ℝ → Arr ℝ → Arr ℝ → Py ℝ),
      Per [ns.length] (fun y => y.shape = [ns.length]) Nd.get m
        (fun b => G (fr (batch h w ns) b) (fr (batch h w ps) b) (fr (batch h w os) b)) →
      RunProperties.batchValues (fun a b c => match a, b, c with
        | .arr n, .arr p, .arr o => G (n.map Casts.f64) (p.map Casts.f64) (o.map Casts.f64)
        | _, _, _ => .error .typeError) (ns.map Cell.arr) (ps.map Cell.arr) (os.map Cell.arr)
        = m.map fun y => (List.range ns.length).map fun i => y.get [i] := by
    intro m G hm
    have hfr : ∀ i (hi : i < ns.length), fr (batch h w ns) [i] = ns[i].map Casts.f64 ∧ fr (batch h w ps) [i] = ps[i].map Casts.f64 ∧
        fr (batch h w os) [i] = os[i].map Casts.f64 := fun i hi =>
      ⟨frame_batch (fun a ha => hsh a (.inl ha)) hi, frame_batch (fun a ha => hsh a (.inr (.inl ha))) (by omega),
        frame_batch (fun a ha => hsh a (.inr (.inr ha))) (by omega)⟩
    have hpos : 0 < ns.length := List.length_pos_iff.mpr h0
    cases m with
    | error e =>
      refine error_of_frame (by simpa using hpos) (by simpa using hlp) (by simpa using hlo) ?_
      have := hm [0] (.cons hpos .nil)
      dsimp only at this
      rw [(hfr 0 hpos).1, (hfr 0 hpos).2.1, (hfr 0 hpos).2.2] at this
      simpa using this
    | ok y =>
      have := values_of_frames (F := fun a b c => match a, b, c with
        | .arr n, .arr p, .arr o => G (n.map Casts.f64) (p.map Casts.f64) (o.map Casts.f64)
        | _, _, _ => .error .typeError) (v := fun i => y.get [i]) (ns := ns.map Cell.arr) (ps := ps.map Cell.arr)
        (os := os.map Cell.arr) (by simpa using hlp) (by simpa using hlo) (fun i hi => by
          have hi' : i < ns.length := by simpa using hi
          have := hm.2 [i] (.cons hi' .nil)
          dsimp only at this
          rw [(hfr i hi').1, (hfr i hi').2.1, (hfr i hi').2.2] at this
          simpa using this)
      rw [this, List.length_map]
      rfl
  have sn : IsStk [ns.length] (batch h w ns) := ⟨h, w, batch_shape⟩
  have sp : IsStk [ns.length] (batch h w ps) := ⟨h, w, by rw [batch_shape, hlp]⟩
  have so : IsStk [ns.length] (batch h w os) := ⟨h, w, by rw [batch_shape, hlo]⟩
  have fin : ∀ G : Arr ℝ → Arr ℝ → Arr ℝ → Py ℝ, RunProperties.propValue name dx (attrReal c1) = G →
      Per [ns.length] (fun y => y.shape = [ns.length]) Nd.get
        (RunProperties.propBatch name dx (attrReal c1) (batch h w ns) (batch h w ps) (batch h w os))
        (fun b => G (fr (batch h w ns) b) (fr (batch h w ps) b) (fr (batch h w os) b)) →
      RunProperties.batchValues (RunProperties.hwProps.value name dx c1) (ns.map Cell.arr) (ps.map Cell.arr)
        (os.map Cell.arr) = (RunProperties.propBatch name dx (attrReal c1) (batch h w ns) (batch h w ps) (batch h w os)).map fun y => (List.range ns.length).map fun i => y.get [i] := by
    intro G hG hPer
    rw [← key _ G hPer, ← hG]
    rfl
  simp only [Spec.propertyTable, List.mem_cons, List.not_mem_nil, or_false] at hname
  rcases hname with rfl | rfl | rfl | rfl | rfl | rfl | rfl | rfl
  · exact fin (fun n p _ => Properties.get_gamma_n n p dx) rfl (per_gamma_n sn sp dx)
  · exact fin (fun n p _ => Properties.get_gamma_n_spectrally n p dx) rfl (per_gamma_n_spectral sn sp dx)
  · exact fin (fun n p _ => Properties.get_gamma_c n p (attrReal c1) dx) rfl (per_gamma_c sn sp _ dx)
  · exact fin (fun n p _ => Properties.get_energy n p dx) rfl (per_energy sn sp dx)
  · exact fin (fun n _ _ => Properties.get_energy_N_spectrally n) rfl (per_energy_N sn)
  · exact fin (fun _ p _ => Properties.get_energy_V_spectrally p dx) rfl (per_energy_V sp dx)
  · exact fin (fun n _ o => Properties.get_enstrophy n o dx) rfl (per_enstrophy sn so dx)
  · exact fin (fun n p _ => Properties.get_enstrophy_phi n p dx) rfl (per_enstrophy_phi sn sp dx)

/-- three frames of a small stack -/
noncomputable def demoBatch : List (Arr ℝ) := [Arr.tab 4 4 fun i j => i + j, Arr.tab 4 4 fun i _ => i ^ 2, Arr.tab 4 4 fun _ j => 3 * j]

example (name : String) (hn : name ∈ Spec.propertyTable) :=
  @C95_batches ℝ _ ⟨id, id⟩ 4 4 demoBatch demoBatch demoBatch rfl rfl (by simp [demoBatch])
    (by intro a ha; simp [demoBatch] at ha; rcases ha with rfl | rfl | rfl <;> exact ⟨rfl, rfl⟩) name hn (1 / 2) (.num 1)

end Verif.Props
