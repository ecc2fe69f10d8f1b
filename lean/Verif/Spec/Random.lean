import Verif.Model.Random

/-!
# Specification vocabulary for random draws
-/

namespace Pylogit.Spec

/-- The `i`-th array of normal draws the generator returns from state `s` on. -/
def normalStream (g : Rng) (m d : ℕ) : ℕ → g.State → Fin m → Fin d → ℝ
  | 0, s => (g.normals m d s).1
  | i + 1, s => normalStream g m d i (g.normals m d s).2

/-- `np.random.choice` returns as many elements of the list as it is asked for (from an empty list it can only be
asked for none). -/
def ChoosesMembers (g : Rng) : Prop :=
  ∀ (ι : Type) (ids : List ι) (size : ℕ) (s : g.State), ids ≠ [] ∨ size = 0 →
    (g.choice ids size s).1.length = size ∧ ∀ x ∈ (g.choice ids size s).1, x ∈ ids

/-- The state of the generator when the `j`-th of the lists `l` is sampled from, `N` times its length, one list
after the other from state `s` on. -/
def choiceState {ι : Type} (g : Rng) (N : ℕ) (l : List (List ι)) (s : g.State) : ℕ → g.State
  | 0 => s
  | j + 1 => (g.choice (l.getD j []) ((l.getD j []).length * N) (choiceState g N l s j)).2

end Pylogit.Spec
