import Verif.Model.Design
import Verif.Model.Basic

/-!
# Model of saving a model object to a file

`to_pickle` opens the file for writing, which empties it, and then lets `pickle.dump` write to it
piece by piece.  The operations on the disk are explicit, so that the process can be stopped after
any of them.
-/

namespace Pylogit

/-- A disk: the content of each file, `none` for a file that does not exist. -/
abbrev Disk (B : Type) := String → Option (List B)

/-- The two operations of a file opened for writing: emptying (or creating) it, and adding bytes at
its end. -/
inductive DiskOp (B : Type) where
  | truncate (path : String)
  | append (path : String) (bytes : List B)

/-- The effect of one operation. -/
def DiskOp.run {B : Type} : DiskOp B → Disk B → Disk B
  | .truncate p, d => Function.update d p (some [])
  | .append p bs, d => Function.update d p (some ((d p).getD [] ++ bs))

/-- Operations in order. -/
def runOps {B : Type} (ops : List (DiskOp B)) (d : Disk B) : Disk B :=
  ops.foldl (fun d op => op.run d) d

/-- What `pickle.dump(self, f)` does for one object: the pieces it writes, and the exception it
raises after the last of them, if any (an attribute that cannot be pickled). -/
structure Dump (B : Type) where
  chunks : List (List B)
  raises : Option Err

/-- The `pickle` module: `dump` and `load`.  Not in the repository; its laws are hypotheses of the
theorems. -/
structure Pickler (M B : Type) where
  dump : M → Dump B
  load : List B → Option M

/-- The checks of `to_pickle` on its argument, base_multinomial_cm_v2.py:1986-1990. -/
def pickleArg {V : Type} : PyVal V → Except Err String
  | .str p => if ".pkl".toList <:+ p.toList then .ok p else .ok (p ++ ".pkl")
  | _ => .error .valueError

/-- `with open(filepath, "wb") as f: pickle.dump(self, f)`, base_multinomial_cm_v2.py:1992-1993.
Simplification: the file can be opened and the disk is not full. -/
def pickleOps {M B : Type} (P : Pickler M B) (m : M) (path : String) : List (DiskOp B) :=
  .truncate path :: (P.dump m).chunks.map fun bs => .append path bs

/-- `to_pickle`, base_multinomial_cm_v2.py:1974-1997: the disk afterwards and the exception. -/
def toPickle {M B V : Type} (P : Pickler M B) (m : M) (filepath : PyVal V) (d : Disk B) :
    Disk B × Option Err :=
  match pickleArg filepath with
  | .error e => (d, some e)
  | .ok path => (runOps (pickleOps P m path) d, (P.dump m).raises)

/-- The disk when the process stops after `k` operations of `to_pickle`,
base_multinomial_cm_v2.py:1974-1997. -/
def toPickleStopped {M B V : Type} (P : Pickler M B) (m : M) (filepath : PyVal V) (k : ℕ)
    (d : Disk B) : Disk B :=
  match pickleArg filepath with
  | .error _ => d
  | .ok path => runOps ((pickleOps P m path).take k) d

/-- Loading a file: `pickle.load(open(path, "rb"))` as users do; a missing or damaged file gives
nothing. -/
def Pickler.loadFile {M B : Type} (P : Pickler M B) (d : Disk B) (path : String) : Option M :=
  (d path).bind P.load

/-- What happens to a model object between saves: it changes (a fit, say), or it is saved. -/
inductive SaveEvent (M V : Type) where
  | change (f : M → M)
  | save (filepath : PyVal V)

/-- A history of changes and saves of one object. -/
def runSaves {M B V : Type} (P : Pickler M B) : List (SaveEvent M V) → M × Disk B → M × Disk B
  | [], s => s
  | .change f :: es, s => runSaves P es (f s.1, s.2)
  | .save p :: es, s => runSaves P es (s.1, (toPickle P s.1 p s.2).1)

end Pylogit
