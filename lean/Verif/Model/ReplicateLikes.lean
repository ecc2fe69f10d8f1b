import Verif.Model.Predict
import Verif.Model.BootstrapMle
import Verif.Model.Mixed

/-!
# Model of the log-likelihoods of bootstrap replicates

`Boot.calc_log_likes_for_replicates`, bootstrap.py:500-594, and what it uses: `predict` with
two-dimensional parameter arrays (`d` columns, one per replicate) for the logit-type models, and with one
replicate at a time for the nested logit model.  Two-dimensional arrays are given by their rows, so the
parameter arrays are lists of `Fin d → ℝ`.

numpy's broadcasting of a one-dimensional array of `n` entries with a two-dimensional `n × d` array is
modelled, because the code does it: the one-dimensional array is a row, and it is matched with the columns.
-/

open Matrix

namespace Pylogit

/-- A two-dimensional array with one row per row of the data. -/
structure ColArr (n : ℕ) where
  numCols : ℕ
  val : Fin n → Fin numCols → ℝ

/-- The product of a mapping with `n` rows and an array of parameters: one-dimensional or with `d`
columns. -/
inductive LongArr (n d : ℕ)
  | vec (x : Fin n → ℝ)
  | mat (x : Fin n → Fin d → ℝ)

noncomputable section

variable {n d : ℕ}

/-- An elementwise operation on `a` and the `n × d` array `b`, with numpy's broadcasting: a one-dimensional
`a` has one entry per column, or one entry in all, or `b` has a single column, which is repeated. -/
def broadcast (f : ℝ → ℝ → ℝ) (a : LongArr n d) (b : Fin n → Fin d → ℝ) : Except Err (ColArr n) :=
  match a with
  | .mat x => .ok ⟨d, fun r e => f (x r e) (b r e)⟩
  | .vec x =>
    if h : d = n then .ok ⟨d, fun r e => f (x (Fin.cast h e)) (b r e)⟩
    else if h : d = 1 then .ok ⟨n, fun r s => f (x s) (b r ⟨0, by omega⟩)⟩
    else if h : n = 1 then .ok ⟨d, fun r e => f (x ⟨0, by omega⟩) (b r e)⟩
    else .error .valueError

/-- `b += a`: as `broadcast`, but the result must have the shape of `b`. -/
def inplaceAdd (b : ColArr n) (a : LongArr n d) : Except Err (ColArr n) :=
  match a with
  | .mat x =>
    if h : b.numCols = d then .ok ⟨b.numCols, fun r e => b.val r e + x r (Fin.cast h e)⟩
    else if h : d = 1 then .ok ⟨b.numCols, fun r e => b.val r e + x r ⟨0, by omega⟩⟩
    else .error .valueError
  | .vec x =>
    if h : b.numCols = n then .ok ⟨b.numCols, fun r e => b.val r e + x (Fin.cast h e)⟩
    else if h : n = 1 then .ok ⟨b.numCols, fun r e => b.val r e + x ⟨0, by omega⟩⟩
    else .error .valueError

/-- `a = np.zeros(m); a[idxs] = vals` for a two-dimensional array `vals` with at most one column: the
assignment is possible only if `vals` has a single row too. -/
def scatterSingle (m : ℕ) (idxs : List ℕ) (vals : List (Fin d → ℝ)) : Except Err (List ℝ) :=
  if ∃ i ∈ idxs, m ≤ i then .error .indexError
  else
    match vals with
    | [x] =>
      if h : d = 1 then .ok ((List.range m).map fun j => if j ∈ idxs then x ⟨0, by omega⟩ else 0)
      else .error .valueError
    | _ => .error .valueError

/-- `mapping.dot(array)` for a two-dimensional array. -/
def mappingDot2 {m : ℕ} (mapping : Matrix (Fin n) (Fin m) ℝ) (x : List (Fin d → ℝ)) :
    Except Err (Fin n → Fin d → ℝ) :=
  if x.length ≠ m then .error .valueError
  else .ok fun r e => (mapping *ᵥ fun j => x.getD j 0 e) r

/-- The outside intercepts of the rows (`none`: there are none): asym_logit.py:315-337,
clog_log.py:180-202, uneven_logit.py:210-232 and scobit.py:156-181.  The two-dimensional branch is used for
two or more columns. -/
def interceptTerm2 (cls : ModelType) {m : ℕ} (rta : Matrix (Fin n) (Fin m) ℝ) (ref : PyRef)
    (ip : Option (List (Fin d → ℝ))) : Except Err (Option (LongArr n d)) :=
  match ref, ip with
  | .none, _ => .ok none
  | _, none => .ok none
  | ref, some a => do
    let idxs ← removeRef (if cls = .scobit then a.length + 1 else m) ref
    if 1 < d then do
      let all ← scatter m idxs a
      let x ← mappingDot2 rta all
      .ok (some (.mat x))
    else do
      let all ← scatterSingle m idxs a
      let x ← mappingDot rta all
      .ok (some (.vec x))

/-- `_convert_eta_to_c`, asym_logit.py:144-181, for a two-dimensional array, followed by
`rows_to_alts.dot`, asym_logit.py:286.  With one column the result has one dimension. -/
def etaTerm2 {m : ℕ} (rta : Matrix (Fin n) (Fin m) ℝ) (ref : PyRef) (eta : List (Fin d → ℝ)) :
    Except Err (LongArr n d) :=
  match ref with
  | .int z => do
    let idxs ← removeRef (eta.length + 1) ref
    let expEta : List (Fin d → ℝ) := eta.map fun x e =>
      if Real.exp (x e) = 0 then minCompValue else Real.exp (x e)
    let denom : Fin d → ℝ := fun e => (expEta.map fun x => x e).sum + 1
    if 1 < d then do
      let c ← scatter (eta.length + 1) idxs (expEta.map fun x e => x e / denom e)
      let x ← mappingDot2 rta (c.set z.toNat fun e => 1 / denom e)
      .ok (.mat x)
    else do
      let c ← scatterSingle (eta.length + 1) idxs (expEta.map fun x e => x e / denom e)
      if h : d = 1 then do
        let x ← mappingDot rta (c.set z.toNat (1 / denom ⟨0, by omega⟩))
        .ok (.vec x)
      else .error .valueError
  | _ => .error .valueError

/-- The exponentiated shapes of the rows: scobit.py:184-188 and uneven_logit.py:161-167. -/
def shapeTerm2 {m : ℕ} (rta : Matrix (Fin n) (Fin m) ℝ) (shapes : Option (List (Fin d → ℝ))) :
    Except Err (Fin n → Fin d → ℝ) :=
  match shapes with
  | none => .error .typeError
  | some s => mappingDot2 rta (s.map fun x e => Real.exp (x e))

/-- `transformed_utilities += rows_to_alts.dot(all_intercepts)`, when there are intercepts. -/
def addIntercepts (b : ColArr n) (a : Option (LongArr n d)) : Except Err (ColArr n) :=
  match a with
  | none => .ok b
  | some x => inplaceAdd b x

/-- `self.utility_transform` of the logit-type models for two-dimensional arrays: conditional_logit.py:84-100,
clog_log.py:116-208, scobit.py:111-213, uneven_logit.py:118-238 and asym_logit.py:228-347.  The Scobit model
without intercepts subtracts from a one-dimensional array of zeros. -/
def predictTransform2 (cls : ModelType) {m : ℕ} (rta : Matrix (Fin n) (Fin m) ℝ) (icptRef shapeRef : PyRef)
    (p : ParamArraysOf (Fin d → ℝ)) (v : Fin n → Fin d → ℝ) : Except Err (ColArr n) :=
  match cls with
  | .cloglog => do
    let a ← interceptTerm2 .cloglog rta icptRef p.intercepts
    addIntercepts ⟨d, fun r e => clogH (v r e)⟩ a
  | .scobit => do
    let a ← interceptTerm2 .scobit rta icptRef p.intercepts
    let c ← shapeTerm2 rta p.shapes
    broadcast (fun x t => x + t) (a.getD (.vec fun _ => 0)) fun r e => scobitH (c r e) (v r e)
  | .uneven => do
    let c ← shapeTerm2 rta p.shapes
    let a ← interceptTerm2 .uneven rta icptRef p.intercepts
    addIntercepts ⟨d, fun r e => unevenH (c r e) (v r e)⟩ a
  | .asym =>
    match p.shapes with
    | none => .error .typeError
    | some s => do
      let c ← etaTerm2 rta shapeRef s
      let t ← broadcast (asymH m) c v
      let a ← interceptTerm2 .asym rta icptRef p.intercepts
      addIntercepts t a
  | _ => .ok ⟨d, v⟩

/-- `design.dot(beta)`, choice_calcs.py:133, for a two-dimensional array of coefficients. -/
def designDot2 (cols : List (Fin n → ℝ)) (beta : List (Fin d → ℝ)) : Except Err (Fin n → Fin d → ℝ) :=
  if cols.length ≠ beta.length then .error .valueError
  else .ok fun r e => ((cols.zip beta).map fun p => p.1 r * p.2 e).sum

/-- The probabilities of the chosen alternatives, choice_calcs.py:143-189 with `return_long_probs` false:
all steps act on each column separately. -/
def chosenParts2 {O : Type} [Fintype O] (rowsToObs : Matrix (Fin n) O ℝ) (h : ColArr n) (y : Fin n → ℝ) :
    O → Fin h.numCols → ℝ :=
  fun o e => chosenProbs rowsToObs (Matrix.of fun r o => rowsToObs r o * y r) (fun r => h.val r e) o

/-- `np.log(chosen_probs).sum(axis=0)`, bootstrap.py:588.  An array of probabilities with no columns gives
an empty list here; in the code it gives 0.0. -/
def logSums {O : Type} [Fintype O] {k : ℕ} (probs : O → Fin k → ℝ) : List ℝ :=
  List.ofFn fun e => ∑ o, Real.log (probs o e)

/-- `get_param_list_for_prediction`, bootstrap.py:81-138, for a model object, read as parameter arrays.
Without index coefficients `predict` refuses the list, base_multinomial_cm_v2.py:1736. -/
def replicateParams {W : Type} (m : ChoiceModel ℝ) (reps : List W) : Except Err (ParamArraysOf W) :=
  match paramListLoop reps [nameCount m.args.nestSpec, nameCount m.args.shapeNames,
      nameCount m.args.interceptNames, m.indVarNames.length] 0 [] with
  | [some ix, ic, sh, ne] => .ok ⟨ix, ic, sh, ne⟩
  | _ => .error .typeError

/-- `predict` with two-dimensional arrays, `return_long_probs` false and a choice column, for the logit-type
models: base_multinomial_cm_v2.py:1857-1908 and 1962-1972. -/
def predictFrame2 (env : Env ℝ) (m : ChoiceModel ℝ) (df : Frame ℝ) (p : ParamArraysOf (Fin d → ℝ))
    (choiceCol : String) : Except Err (List ℝ) := do
  predictChecks m df (some p) false (some choiceCol)
  let design ← createDesignMatrix env.fmt env.fmtList df m.args.specification m.args.altIdCol m.args.names
  let choice ← choiceArray df (some choiceCol)
  let v ← designDot2 design.1 p.index
  let h ← predictTransform2 m.cls (df.rowsToAlts m.args.altIdCol) m.args.interceptRefPos
    m.args.shapeRefPos p v
  match choice with
  | none => .error .valueError
  | some y => .ok (logSums (chosenParts2 (df.rowsToObs m.args.obsIdCol) h y))

/-- `calc_log_likes_for_replicates`, bootstrap.py:500-594, for the logit-type models: `reps` is the table of
replicates, one entry per parameter (in estimator order), each with one number per replicate. -/
def replicateLikes (env : Env ℝ) (m : ChoiceModel ℝ) (reps : List (Fin d → ℝ)) : Except Err (List ℝ) := do
  let p ← replicateParams m reps
  predictFrame2 env m (addIntercept m.args.specification m.data) p m.args.choiceCol

/-- The log-likelihood of one replicate of a nested logit model, bootstrap.py:561-583 and 588. -/
def nestedReplicateLike (env : Env ℝ) (m : ChoiceModel ℝ) (nestSpec : List (String × List ℝ))
    (stored : ParamArrays) (rep : List ℝ) : Except Err ℝ := do
  let p ← replicateParams m rep
  let res ← predictNestedFrame env m nestSpec stored (addIntercept m.args.specification m.data)
    (some p) false (some m.args.choiceCol)
  match res with
  | .chosen probs => .ok (∑ o, Real.log (probs o))
  | _ => .error .typeError

/-- `calc_log_likes_for_replicates`, bootstrap.py:500-594, for the nested logit model: a prediction per
replicate with one-dimensional arrays; concatenating no predictions is a `ValueError`. -/
def replicateLikesNested (env : Env ℝ) (m : ChoiceModel ℝ) (nestSpec : List (String × List ℝ))
    (stored : ParamArrays) (reps : List (Fin d → ℝ)) : Except Err (List ℝ) := do
  let likes ← (List.finRange d).mapM fun e =>
    nestedReplicateLike env m nestSpec stored (reps.map fun x => x e)
  if d = 0 then .error .valueError else .ok likes

/-- The log-likelihood of one replicate of a mixed logit model, bootstrap.py:561-583 and 588, from the design
matrix, mappings and draws on: the chosen probabilities of `predict`, logged and summed. -/
def mixedReplicateLike {R O M K D ι A : Type} [Fintype R] [Fintype O] [Fintype M] [Fintype K] [Fintype D]
    (mixingPos : List K) (coefs : K ⊕ Fin mixingPos.length → ℝ) (design : Matrix R K ℝ) (altIDs : R → ι)
    (rowsToObs : Matrix R O ℝ) (rowsToAlts : Matrix R A ℝ) (rowsToMixers : Matrix R M ℝ)
    (drawList : List (M → D → ℝ)) (choice : R → ℝ) : Except Err ℝ := do
  let res ← mixedPredict mixingPos coefs design altIDs rowsToObs rowsToAlts rowsToMixers drawList
    (some (Matrix.of fun r o => rowsToObs r o * choice r)) false
  match res with
  | .inr probs => .ok (∑ o, Real.log (probs o))
  | .inl _ => .error .typeError

end

end Pylogit
