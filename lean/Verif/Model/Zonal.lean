import Verif.NumPy.Reduce

/-!
# Model of `zonal_transform/numpy_zonal_transform.py`
-/

namespace Verif.Zonal

open Arr

variable {K : Type} [Field K] [Inhabited K]

/-- `zonal_transform`, l.16-21: subtract the mean over axis −2 (y). -/
def zonal_transform (field : Arr K) : Py (Arr K) :=
  let avg_ky_field := field.meanRows
  (.ok field - .ok avg_ky_field : Py (Arr K))

/-- `zonal_transform_fourier`, l.4-13: `np.fft.fft` has no keyword `axes`, so
l.6 raises `TypeError` for every argument. -/
def zonal_transform_fourier (_field : Arr K) : Py (Arr K) := .error .typeError

end Verif.Zonal
