import Verif.Spec.MixedFit

/-!
# Specification vocabulary: the same data in another order and with other ids
-/

namespace Pylogit.Spec

/-- The second table holds the rows of the first in some order; in the columns `idCols` the ids are replaced,
one-to-one (`lab c` gives the new ids of column `c`), and every other column is kept. -/
def SameData (idCols : List String) (lab : String → ℝ → ℝ) (df df' : Frame ℝ) : Prop :=
  df'.columns = df.columns ∧ (∀ c, Function.Injective (lab c)) ∧ (∀ c, c ∉ idCols → lab c = id) ∧
    ∃ σ : Fin df'.numRows ≃ Fin df.numRows, ∀ c ∈ df.columns, ∀ r, df'.val c r = lab c (df.val c (σ r))

/-- Rows of one observation belong to one person. -/
def OnePerson (df : Frame ℝ) (obsCol mixCol : String) : Prop :=
  ∀ r s, df.val obsCol r = df.val obsCol s → df.val mixCol r = df.val mixCol s

end Pylogit.Spec
