import Verif.Model.Conversion
import Verif.Model.Predict

/-!
# Model of tables shared between the caller and the models

A `DataFrame` is passed by reference: the constructor changes the caller's table in place
(`add_intercept_to_dataframe`), the model keeps a reference to it (`self.data`), and the caller may change it
later.  A session holds the tables of the caller and the models built so far, each with the position of its table.
Tables that are read from files are in `Verif.Model.Files`.
-/

namespace Pylogit

variable {V : Type} [LinearOrder V]

/-- The caller's table after `MNDC_Model.__init__`, base_multinomial_cm_v2.py:776-918: unchanged if one of the first
checks fails, and with the intercept column otherwise, even if a later step fails. -/
def baseInitTable [One V] (env : Env V) (df : Frame V) (a : ModelArgs V) : Frame V :=
  match initChecks env df a with
  | .error _ => df
  | .ok _ => addIntercept a.specification df

/-- The caller's table after the constructors of the seven classes.  conditional_logit.py:269-303,
asym_logit.py:877-916, clog_log.py:574-610, scobit.py:688-725, uneven_logit.py:691-725, nested_logit.py:401-438,
mixed_logit.py:449-489. -/
def classInitTable [One V] (env : Env V) (cls : ModelType) (df : Frame V) (a : ModelArgs V) : Frame V :=
  match cls with
  | .mnl =>
    if a.interceptRefPos ≠ .none then df
    else baseInitTable env df
      { a with shapeRefPos := .none, interceptNames := none, shapeNames := none, nestSpec := none,
               mixingIdCol := none, mixingVars := none }
  | .asym =>
    match a.shapeRefPos with
    | .int _ => baseInitTable env df { a with nestSpec := none, mixingIdCol := none, mixingVars := none }
    | _ => df
  | .cloglog => baseInitTable env df
      { a with shapeRefPos := .none, shapeNames := none, nestSpec := none, mixingIdCol := none,
               mixingVars := none }
  | .scobit => baseInitTable env df
      { a with shapeRefPos := .none, nestSpec := none, mixingIdCol := none, mixingVars := none }
  | .uneven => baseInitTable env df
      { a with shapeRefPos := .none, nestSpec := none, mixingIdCol := none, mixingVars := none }
  | .nested =>
    match a.nestSpec with
    | none => df
    | some _ => baseInitTable env df
        { a with interceptRefPos := .none, shapeRefPos := .none, interceptNames := none,
                 shapeNames := none, mixingIdCol := none, mixingVars := none }
  | .mixed =>
    if a.interceptRefPos ≠ .none then df
    else baseInitTable env df
      { a with shapeRefPos := .none, interceptNames := none, shapeNames := none, nestSpec := none }

/-- The caller's table after `create_choice_model`, pylogit.py:83-225. -/
def createTable [One V] (env : Env V) (modelType : String) (df : Frame V) (a : ModelArgs V) : Frame V :=
  match modelTypeToClass.lookup modelType with
  | none => df
  | some cls => classInitTable env cls df a

/-- A session: the tables of the caller, and the models with the position of their table (`self.data` is a
reference to it; the other attributes were computed when the model was built),
base_multinomial_cm_v2.py:891-916. -/
structure Session (V : Type) where
  tables : List (Frame V)
  models : List (ℕ × ChoiceModel V)

/-- Calls of the library that are given a table or a model. -/
inductive LibCall (V : Type) where
  /-- `create_choice_model(data=table, ...)`. -/
  | create (modelType : String) (table : ℕ) (a : ModelArgs V)
  /-- `model.predict(table, ...)`; what it returns is not part of the session. -/
  | predict (model table : ℕ)
  /-- `model.panel_predict(table, ..., return_long_probs, choice_col)` of a mixed logit model. -/
  | panelPredict (model table : ℕ) (returnLong : Bool) (choiceCol : Option String)
  /-- `model.fit_mle(...)`; the results it stores on the model are those of C90, not part of the session. -/
  | fit (model : ℕ)

/-- The intercept column a prediction by model `m` adds to table `t`, base_multinomial_cm_v2.py:1853 and
mixed_logit.py:750-754. -/
def predictTouch [One V] (s : Session V) (m t : ℕ) : Session V :=
  match s.tables[t]?, s.models[m]? with
  | some df, some p => { s with tables := s.tables.set t (addIntercept p.2.args.specification df) }
  | _, _ => s

/-- The session after a call: pylogit.py:83-225 and base_multinomial_cm_v2.py:776-918 for `create`,
base_multinomial_cm_v2.py:1848-1853 for `predict`, which adds the intercept column before anything can fail,
mixed_logit.py:740-754 for `panel_predict`, which makes one check before; `fit_mle` only reads the table, base_multinomial_cm_v2.py:945-951. -/
def libCall [MulZeroOneClass V] (env : Env V) (c : LibCall V) (s : Session V) : Session V :=
  match c with
  | .create modelType t a =>
    match s.tables[t]? with
    | none => s
    | some df =>
      { tables := s.tables.set t (createTable env modelType df a)
        models := match createChoiceModel env modelType df a with
          | .ok m => s.models ++ [(t, m)]
          | .error _ => s.models }
  | .predict m t => predictTouch s m t
  | .panelPredict m t returnLong choiceCol =>
    if choiceCol = none ∧ returnLong = false then s
    else predictTouch s m t
  | .fit _ => s

/-- `df[c] = values` by the caller.  A simplification: the column is replaced by a new array, as current versions
of pandas do, so that an array taken from the table before is not affected. -/
def Frame.setColumn (df : Frame V) (c : String) (x : ℕ → V) : Frame V where
  columns := if c ∈ df.columns then df.columns else df.columns ++ [c]
  numRows := df.numRows
  val := fun c' r => if c' = c then x r else df.val c' r

/-- The rows of a table in another order, or some of them only (`sort_values`, `drop` with `inplace=True`): row
`i` is the old row `rows[i]`. -/
def Frame.takeRows (df : Frame V) (rows : List (Fin df.numRows)) : Frame V where
  columns := df.columns
  numRows := rows.length
  val := fun c i => df.val c rows[i]

/-- The positions that exist. -/
def validRows (n : ℕ) (rows : List ℕ) : List (Fin n) :=
  rows.filterMap fun i => if h : i < n then some ⟨i, h⟩ else none

/-- What happens in a session: calls of the library, and changes of a table by the caller. -/
inductive SessionEvent (V : Type) where
  | lib (c : LibCall V)
  | setColumn (table : ℕ) (c : String) (x : ℕ → V)
  | takeRows (table : ℕ) (rows : List ℕ)

/-- One event of a session. -/
def sessionEvent [MulZeroOneClass V] (env : Env V) (s : Session V) : SessionEvent V → Session V
  | .lib c => libCall env c s
  | .setColumn t c x => { s with tables := s.tables.modify t fun df => df.setColumn c x }
  | .takeRows t rows => { s with tables := s.tables.modify t fun df => df.takeRows (validRows _ rows) }

/-- A history of events. -/
def session [MulZeroOneClass V] (env : Env V) (s : Session V) (l : List (SessionEvent V)) : Session V :=
  l.foldl (sessionEvent env) s

/-- What `fit_mle` reads: the design matrix, the choices and the alternative ids stored when the model was built
(estimation.py:96-110), and the columns of the model's table as they are now (`get_mappings_for_fit`,
base_multinomial_cm_v2.py:920-951). -/
structure FitInputs (V : Type) where
  design : List (List V)
  choices : List V
  altIds : List V
  mapObs : List V
  mapAlts : List V
  mapChoices : List V
  mapMixing : Option (List V)
  deriving DecidableEq

/-- What `fit_mle` of a model reads when its table is `df`. -/
def fitInputs (m : ChoiceModel V) (df : Frame V) : FitInputs V where
  design := m.design.map List.ofFn
  choices := m.data.colList m.args.choiceCol
  altIds := m.data.colList m.args.altIdCol
  mapObs := df.colList m.args.obsIdCol
  mapAlts := df.colList m.args.altIdCol
  mapChoices := df.colList m.args.choiceCol
  mapMixing := m.args.mixingIdCol.map df.colList

/-- What `fit_mle` of the `i`th model of a session reads. -/
def Session.fitInputs (s : Session V) (i : ℕ) : Option (FitInputs V) :=
  match s.models[i]? with
  | none => none
  | some (t, m) => (s.tables[t]?).map (Pylogit.fitInputs m)

/-- The log-likelihood `fit_mle` of a logit-type model computes (without ridge and weights) at the parameters `p`, from
what it reads: the check of the observation ids, estimation.py:115, the systematic utilities, the transformation
(see `predictTransform`) and `calc_log_likelihood`, choice_calcs.py:192-287, with the mappings of
choice_tools.py:877-963.  `toReal` reads a table entry as a number.  A simplification: the table has as many rows
as when the model was built (otherwise the products with the mappings fail; not modelled). -/
noncomputable def FitInputs.logLik [AddGroup V] (toReal : V → ℝ) (cls : ModelType) (icptRef shapeRef : PyRef)
    (x : FitInputs V) (p : ParamArrays) : Except Err ℝ := do
  ensureContiguity x.mapObs
  let v ← designDot (x.design.map fun col => fun r : Fin x.mapAlts.length => (col[r.val]?.map toReal).getD 0) p.index
  let h ← predictTransform cls (rowsToAlts x.mapAlts) icptRef shapeRef p v
  .ok (calcLogLikelihood (K := Empty) (A := Empty) (S := Empty) (I := Empty) (fun e => e.elim) 0
    (fun r => x.altIds[r.val]?)
    (Matrix.of fun r o => if x.mapObs[r.val]? = some ((originalOrderUniqueIds x.mapObs).get o) then 1 else 0)
    0 (fun r => (x.choices[r.val]?.map toReal).getD 0) (fun _ _ _ _ _ => h) none none none none)

end Pylogit
