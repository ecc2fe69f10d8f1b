import Verif.Model.Saving

/-!
# Specification vocabulary for saved models
-/

namespace Pylogit.Spec

/-- What is assumed of `pickle`: what was dumped completely loads as the same object, a strict
beginning of it does not load, nor does what an aborted dump has written. -/
structure LawfulPickler {M B : Type} (P : Pickler M B) : Prop where
  roundtrip : ∀ m, (P.dump m).raises = none → P.load (P.dump m).chunks.flatten = some m
  truncated : ∀ m bs, bs <+: (P.dump m).chunks.flatten → bs ≠ (P.dump m).chunks.flatten →
    P.load bs = none
  aborted : ∀ m, (P.dump m).raises ≠ none → P.load (P.dump m).chunks.flatten = none

/-- A file name, as the documentation of `to_pickle` explains it: the argument, with ".pkl" at the
end. -/
def SavesTo (arg path : String) : Prop :=
  (path = arg ∧ ∃ stem : List Char, arg.toList = stem ++ ".pkl".toList) ∨
    (path = arg ++ ".pkl" ∧ ¬ ∃ stem : List Char, arg.toList = stem ++ ".pkl".toList)

/-- The object after a history: saves do not change it. -/
def changesOnly {M V : Type} : List (SaveEvent M V) → M → M
  | [], m => m
  | .change f :: es, m => changesOnly es (f m)
  | .save _ :: es, m => changesOnly es m

end Pylogit.Spec
