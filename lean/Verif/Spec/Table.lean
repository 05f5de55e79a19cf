import Mathlib.Data.Nat.Notation
import Mathlib.Data.List.Basic

/-!
# What a printed table is

Independent of the model of `format_print_dict`.
-/

namespace Verif.Spec

variable {ν : Type}

/-- `key:` filled with blanks up to the width `w`, the spacing, the number -/
def tableCell (fmt : ν → List Char) (spacing : List Char) (w : ℕ) (e : List Char × ν) : List Char :=
  e.1 ++ [':'] ++ List.replicate (w - (e.1.length + 1)) ' ' ++ spacing ++ fmt e.2

/-- A line of the table: the cells of the row, separated by `key_spacing`; cell
`j` has the width of column `j`. -/
def tableLine (fmt : ν → List Char) (spacing key_spacing : List Char) (w : ℕ → ℕ) (row : List (List Char × ν)) : List Char :=
  key_spacing.intercalate (row.mapIdx fun j e => tableCell fmt spacing (w j) e)

/-- `text` is a table whose rows, read one after the other, are `items`: every
line shows one row; in each column the names fit into the width of the column (so
that the columns are aligned); all rows are as long as the first one, only the
last may be shorter. -/
structure IsTable (fmt : ν → List Char) (spacing key_spacing : List Char) (items : List (List Char × ν))
    (rows : List (List (List Char × ν))) (w : ℕ → ℕ) (text : List Char) : Prop where
  all_in_order : rows.flatten = items
  shown : text = ['\n'].intercalate (rows.map (tableLine fmt spacing key_spacing w))
  aligned : ∀ row ∈ rows, ∀ (j : ℕ) (e : List Char × ν), row[j]? = some e → e.1.length + 1 ≤ w j
  full : ∃ i, 1 ≤ i ∧ (∀ r, r + 1 < rows.length → ∃ row, rows[r]? = some row ∧ row.length = i) ∧
    ∀ row ∈ rows, 1 ≤ row.length ∧ row.length ≤ i

end Verif.Spec
