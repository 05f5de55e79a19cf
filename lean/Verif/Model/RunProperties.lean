import Verif.Model.IO

/-!
# Model of `utils/run_properties.py`
-/

namespace Verif.RunProperties

open H5 H5IO

variable {α β : Type} [Casts α β] [Zero α] [Inhabited α] [Inhabited β]

/-- The functions called by `calculate_properties`: value of a property for one
frame `(density, phi, omega)`, given `dx` and `c1`; only used for the keys of
`property_mapping` (l.92-101). -/
structure PropEnv (α β : Type) where
  /-- `2 * np.pi / k0 / x_save`, l.47-48 -/
  dx : Attr α → Attr α → α
  value : String → α → Attr α → Cell β → Cell β → Cell β → Py α

/-- keys of `property_mapping`, l.92-101, in order -/
def propertyNames : List String :=
  ["gamma_n", "gamma_n_spectral", "gamma_c", "energy", "thermal_energy", "kinetic_energy", "enstrophy", "enstrophy_phi"]

/-- `parameters[key]`; `utils/run_properties.py` l.47-50 -/
def attr (f : H5 α β) (key : String) : Py (Attr α) := match f.attrs key with
  | some v => .ok v
  | none => .error (.keyError key)

/-- the loop l.56-64; returns `selection`.  Property datasets have shape
`(steps,)`, default dtype `float32`, fill value 0. -/
def createLoop (path : String) (steps : ℕ) (force_recompute : Bool) : List String → IOM α β (List String)
  | [] => pure []
  | name :: rest => do
    if ← hasKey path name then
      if force_recompute then delDset path name
    if ← hasKey path name then createLoop path steps force_recompute rest
    else do
      createDset path name (.flat (List.replicate steps (Casts.f32 (0 : α))))
      let sel ← createLoop path steps force_recompute rest
      return name :: sel

/-- `h5_file[name][i : i + batch_size]` for a resizable dataset; `utils/run_properties.py`
l.83-85 -/
def readRows (path name : String) (i batch_size : ℕ) : IOM α β (List (Cell β)) := do
  match ← dset path name with
  | .rows _ r => return (r.drop i).take batch_size
  | _ => IOM.raise .typeError

/-- A property function applied to a batch: frame by frame (justified for the
eight property functions by `C95_batches`).  Batches of unequal
length do not broadcast (a batch of one frame would; it cannot meet a longer
one in a file written by the run functions).  `utils/run_properties.py` l.22, 92-101. -/
def batchValues (F : Cell β → Cell β → Cell β → Py α) : List (Cell β) → List (Cell β) → List (Cell β) → Py (List α)
  | [], [], [] => .ok []
  | n :: ns, p :: ps, o :: os => do
    let v ← F n p o
    let vs ← batchValues F ns ps os
    return v :: vs
  | _, _, _ => .error .valueError

/-- `add_data`, l.20-25: `hf[name][i : i + batch_size] = data()` if selected -/
def add_data (path : String) (i batch_size : ℕ) (name : String) (data : Py (List α)) (selection : List String) :
    IOM α β Unit := do
  if name ∈ selection then do
    let data ← IOM.lift data
    match ← dset path name with
    | .flat v =>
      if data.length = min batch_size (v.length - i) then
        putDset path name (.flat (v.take i ++ data.map Casts.f32 ++ v.drop (i + data.length)))
      else IOM.raise .typeError
    | _ => IOM.raise .typeError

/-- the loop l.102-103 over `property_mapping` -/
def addAll (E : PropEnv α β) (path : String) (dx : α) (c1 : Attr α) (i batch_size : ℕ) (n p o : List (Cell β))
    (selection : List String) : List String → IOM α β Unit
  | [] => pure ()
  | name :: rest => do
    add_data path i batch_size name (batchValues (E.value name dx c1) n p o) selection
    addAll E path dx c1 i batch_size n p o selection rest

/-- the loop l.72-103 over batches; `k` bounds the number of batches still to do -/
def batchLoop (E : PropEnv α β) (path : String) (dx : α) (c1 : Attr α) (steps batch_size : ℕ)
    (selection : List String) : ℕ → ℕ → IOM α β Unit
  | 0, _ => pure ()
  | k + 1, i =>
    if i < steps then do
      let n ← readRows path "density" i batch_size
      let p ← readRows path "phi" i batch_size
      let o ← readRows path "omega" i batch_size
      addAll E path dx c1 i batch_size n p o selection propertyNames
      batchLoop E path dx c1 steps batch_size selection k (i + batch_size)
    else pure ()

/-- `calculate_properties`, l.28-105.  `range(0, steps, 0)` raises `ValueError`
(after the datasets have been created). -/
def calculate_properties (E : PropEnv α β) (path : String) (batch_size : ℕ) (property_list : List String)
    (force_recompute : Bool) : IOM α β Unit := do
  openR path
  let f ← content path
  let k0 ← IOM.lift (attr f "k0")
  let x_save ← IOM.lift (attr f "x_save")
  let dx := E.dx k0 x_save
  let c1 ← IOM.lift (attr f "c1")
  let _ ← IOM.lift (attr f "frame_dt")
  let steps ← len path "density"
  let selection ← createLoop path steps force_recompute property_list
  if batch_size = 0 then IOM.raise .valueError
  else batchLoop E path dx c1 steps batch_size selection steps 0

end Verif.RunProperties
