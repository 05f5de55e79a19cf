import Verif.Model.RunProperties
import Verif.Model.RunHW
import Verif.Model.Stacked

/-!
# The property functions of `utils/run_properties.py`

`property_mapping` (l.92-101) with the functions of `numpy_properties`: for one
frame, and for a batch of frames as read from the file.
-/

namespace Verif.RunProperties

open Properties

/-- `property_mapping[name]`, l.92-101, on one frame -/
noncomputable def propValue (name : String) (dx c1 : ℝ) (n p o : Arr ℝ) : Py ℝ :=
  if name = "gamma_n" then get_gamma_n n p dx
  else if name = "gamma_n_spectral" then get_gamma_n_spectrally n p dx
  else if name = "gamma_c" then get_gamma_c n p c1 dx
  else if name = "energy" then get_energy n p dx
  else if name = "thermal_energy" then get_energy_N_spectrally n
  else if name = "kinetic_energy" then get_energy_V_spectrally p dx
  else if name = "enstrophy" then get_enstrophy n o dx
  else if name = "enstrophy_phi" then get_enstrophy_phi n p dx
  else .error (.keyError name)

/-- `property_mapping[name]`, l.92-101, on the arrays of shape `(batch, y, x)` read in l.84-86 -/
noncomputable def propBatch (name : String) (dx c1 : ℝ) (n p o : Nd ℝ) : Py (Nd ℝ) :=
  if name = "gamma_n" then Stacked.get_gamma_n n p dx
  else if name = "gamma_n_spectral" then Stacked.get_gamma_n_spectrally n p dx
  else if name = "gamma_c" then Stacked.get_gamma_c n p c1 dx
  else if name = "energy" then Stacked.get_energy n p dx
  else if name = "thermal_energy" then Stacked.get_energy_N_spectrally n
  else if name = "kinetic_energy" then Stacked.get_energy_V_spectrally p dx
  else if name = "enstrophy" then Stacked.get_enstrophy n o dx
  else if name = "enstrophy_phi" then Stacked.get_enstrophy_phi n p dx
  else .error (.keyError name)

/-- `L = 2 * np.pi / parameters["k0"]`, `dx = L / parameters["x_save"]`, l.47-48 -/
noncomputable def propDx (k0 x_save : ℝ) : ℝ := 2 * Real.pi / k0 / x_save

/-- The functions of `calculate_properties` on stored (`float32`) fields, in
exact arithmetic on the stored values.  A field dataset of plain numbers is
outside the model (`TypeError`).  `utils/run_properties.py` l.92-101. -/
noncomputable def hwProps {β : Type} [Casts ℝ β] : PropEnv ℝ β where
  dx k0 x_save := propDx (attrReal k0) (attrReal x_save)
  value name dx c1 n p o := match n, p, o with
    | .arr n, .arr p, .arr o =>
      propValue name dx (attrReal c1) (n.map Casts.f64) (p.map Casts.f64) (o.map Casts.f64)
    | _, _, _ => .error .typeError

/-- `property_fncs[name](n=n, p=p, o=o, dx=dx, c1=c1)` of `run2.py`, l.42-57 and
l.309-315.  The last four entries need further keyword arguments, which are not
passed (`TypeError`). -/
noncomputable def propertyFncs (name : String) : Option (Cell ℝ → Cell ℝ → Cell ℝ → ℝ → ℝ → Py ℝ) :=
  let fields (F : Arr ℝ → Arr ℝ → Arr ℝ → ℝ → ℝ → Py ℝ) : Option (Cell ℝ → Cell ℝ → Cell ℝ → ℝ → ℝ → Py ℝ) :=
    some fun n p o dx c1 => match n, p, o with
      | .arr n, .arr p, .arr o => F n p o dx c1
      | _, _, _ => .error .typeError
  if name = "gamma_n" then fields fun n p _ dx _ => get_gamma_n n p dx
  else if name = "gamma_n_spectral" then fields fun n p _ dx _ => get_gamma_n_spectrally n p dx
  else if name = "gamma_c" then fields fun n p _ dx c1 => get_gamma_c n p c1 dx
  else if name = "energy" then fields fun n p _ dx _ => get_energy n p dx
  else if name = "thermal_energy" then fields fun n _ _ _ _ => get_energy_N_spectrally n
  else if name = "kinetic_energy" then fields fun _ p _ dx _ => get_energy_V_spectrally p dx
  else if name = "enstrophy" then fields fun n _ o dx _ => get_enstrophy n o dx
  else if name = "enstrophy_phi" then fields fun n p _ dx _ => get_enstrophy_phi n p dx
  else if name = "DE" ∨ name = "DU" ∨ name = "dE_dt" ∨ name = "dU_dt" then some fun _ _ _ _ _ => .error .typeError
  else none

end Verif.RunProperties
