import Verif.Model.IO

/-!
# Vocabulary for the statements about buffered saving
-/

namespace Verif

open H5IO H5

variable {α β : Type}

/-- a cell has the shape of a row -/
def RowShape.Ok : RowShape → Cell β → Prop
  | .one, .num _ => True
  | .grid y x, .arr a => a.h = y ∧ a.w = x
  | _, _ => False

/-- contents of a resizable dataset -/
def H5.rowsOf (f : H5 α β) (k : String) : List (Cell β) := match f.dsets k with
  | some (.rows _ r) => r
  | _ => []

/-- the datasets a buffer belongs to exist and have the right shape -/
structure BufOk (f : H5 α β) (L : ℕ) (buf : NS (Buf β)) : Prop where
  nodup : buf.keys.Nodup
  len : ∀ p ∈ buf, p.2.rows.length = L
  ok : ∀ p ∈ buf, ∀ c ∈ p.2.rows, p.2.shape.Ok c
  dset : ∀ p ∈ buf, ∃ r, f.dsets p.1 = some (.rows p.2.shape r)

section

variable [Casts α β] [Inhabited α]

/-- `new_val` has a fitting value for every buffered field -/
def Fits (buf : NS (Buf β)) (new_val : NS (Cell α)) : Prop :=
  ∀ p ∈ buf, ∃ v c, new_val.get? p.1 = some v ∧ p.2.shape.assign (Casts.f32 : α → β) v = some c

/-- the `state_*` values fit into existing `float64` datasets -/
def StatesFit (f : H5 α β) (last : NS (Cell α)) : Prop :=
  last.keys.Nodup ∧ ∀ p ∈ last, ∃ a a', f.dsets p.1 = some (.full a) ∧
    (RowShape.grid a.h a.w).assign id p.2 = some (.arr a')

end

section

variable [Casts α β] [Zero α] [Inhabited α] [Inhabited β]

/-- Consecutive calls of `save_to_buffered_h5`: each call gets the buffer and
the index left by the previous one. -/
def saveAll (path : String) (L : ℕ) : NS (Buf β) → ℕ → List (NS (Cell α) × NS (Cell α)) → IOM α β (NS (Buf β) × ℕ)
  | buf, i, [] => pure (buf, i)
  | buf, i, (new_val, last) :: rest => do
    let (buf, i) ← save_to_buffered_h5 buf L i new_val path last
    saveAll path L buf i rest

end

end Verif
