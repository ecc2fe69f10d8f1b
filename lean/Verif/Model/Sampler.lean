import Verif.Model.Construct

/-!
# Model of `src/pylogit/bootstrap_sampler.py` and of the replicate generation of `bootstrap.py`

Arrays of equal length are functions on the rows.  `np.random.choice` is a parameter.  Ids keep their
type (the code stores sampled ids as floats, bootstrap_sampler.py:149).
-/

namespace Pylogit

variable {ι κ V : Type} [LinearOrder ι] [LinearOrder κ]

/-! ## Stratified samples -/

/-- `relate_obs_ids_to_chosen_alts`, bootstrap_sampler.py:16-58: for every alternative the sorted ids of
the observations that chose it.  The dictionary is an association list in insertion order. -/
def relateObsIdsToChosenAlts [One V] [DecidableEq V] {n : ℕ} (obsIds : Fin n → ι) (altIds : Fin n → κ)
    (choice : Fin n → V) : List (κ × List ι) :=
  (npSort (npUnique (List.ofFn altIds))).map fun a =>
    (a, npSort (npUnique
      (((List.finRange n).filter fun r => altIds r = a ∧ choice r = 1).map obsIds)))

/-- `get_num_obs_choosing_each_alternative`, bootstrap_sampler.py:61-95. -/
def numObsChoosing (d : List (κ × List ι)) : List (κ × ℕ) × ℕ :=
  let perGroup := d.map fun kv => (kv.1, kv.2.length)
  (perGroup, (perGroup.map Prod.snd).sum)

/-- Row `s` of `flat.reshape((num_samples, size))`. -/
def reshapeRow (flat : List ι) (size s : ℕ) : List ι := (flat.drop (s * size)).take size

/-- `create_cross_sectional_bootstrap_samples`, bootstrap_sampler.py:98-180: the rows of
`ids_per_sample`.  `seed` is `none` for `None`, `some true` for an `int` and `some false` for anything
else.  `draw a ids size` is the result of `np.random.choice(ids, size)` in the pass for alternative
`a`.  The columns of the alternatives are adjacent, from the left, so each row is the concatenation of
the blocks. -/
def crossSectionalSamples [One V] [DecidableEq V] {n : ℕ} (draw : κ → List ι → ℕ → List ι)
    (obsIds : Fin n → ι) (altIds : Fin n → κ) (choice : Fin n → V) (numSamples : ℕ)
    (seed : Option Bool) : Except Err (List (List ι)) :=
  if seed = some false then .error .valueError
  else
    let chosen := relateObsIdsToChosenAlts obsIds altIds choice
    let sizes := (numObsChoosing chosen).1
    .ok ((List.range numSamples).map fun s =>
      sizes.flatMap fun kv =>
        let ids := (chosen.lookup kv.1).getD []
        reshapeRow (draw kv.1 ids (kv.2 * numSamples)) kv.2 s)

/-- `create_bootstrap_id_array`, bootstrap_sampler.py:183-207, for an array with `rows` rows and `cols`
columns: the flat array `tile(arange(cols) + 1, rows)` cut into rows. -/
def bootstrapIdArray (rows cols : ℕ) : List (List ℕ) :=
  let flat := (List.replicate rows ((List.range cols).map (· + 1))).flatten
  (List.range rows).map fun s => reshapeRow flat cols s

/-! ## Tables -/

/-- The rows of a table, in order. -/
def Frame.rows (df : Frame V) : List (String → V) := List.ofFn fun r c => df.val c r

/-- A table with the given rows. -/
def Frame.ofRows (cols : List String) (rows : List (String → V)) : Frame V where
  columns := cols
  numRows := rows.length
  val := fun c r => rows.get r c

/-- `df.loc[mask]`. -/
def Frame.loc (df : Frame V) (mask : Fin df.numRows → Bool) : Frame V :=
  Frame.ofRows df.columns (((List.finRange df.numRows).filter mask).map fun r c => df.val c r)

/-- `df[col] = value` for a scalar. -/
def Frame.setCol (df : Frame V) (col : String) (x : V) : Frame V where
  columns := if col ∈ df.columns then df.columns else df.columns ++ [col]
  numRows := df.numRows
  val := fun c r => if c = col then x else df.val c r

/-- `pd.concat(frames, axis=0, ignore_index=True)` of tables with the same columns; pandas raises
`ValueError` for an empty list. -/
def concatFrames : List (Frame V) → Except Err (Frame V)
  | [] => .error .valueError
  | f :: fs => .ok (Frame.ofRows f.columns ((f :: fs).flatMap Frame.rows))

variable [LinearOrder V]

/-- `create_deepcopied_groupby_dict`, bootstrap_sampler.py:210-245. -/
def groupbyDict (df : Frame V) (obsCol : String) : List (V × Frame V) :=
  (npUnique (df.colList obsCol)).map fun o => (o, df.loc fun r => df.val obsCol r = o)

/-- `check_column_existence`, bootstrap_sampler.py:248-276. -/
def checkColumnExistence (col : String) (df : Frame V) (presence : Bool) : Except Err Unit :=
  if presence then
    if col ∉ df.columns then .error .valueError else .ok ()
  else
    if col ∈ df.columns then .error .valueError else .ok ()

/-- `ensure_resampled_obs_ids_in_df`, bootstrap_sampler.py:279-301. -/
def ensureResampledInDf (sample orig : List V) : Except Err Unit :=
  if ¬ (∀ o ∈ sample, o ∈ orig) then .error .valueError else .ok ()

/-- The loop of `create_bootstrap_dataframe`, bootstrap_sampler.py:353-359, from position `k` on. -/
def componentFrames [NatCast V] (dict : List (V × Frame V)) (bootCol : String) :
    ℕ → List V → Except Err (List (Frame V))
  | _, [] => .ok []
  | k, o :: os =>
    match dict.lookup o with
    | none => .error .keyError
    | some f => do
      let rest ← componentFrames dict bootCol (k + 1) os
      .ok (f.setCol bootCol ((k + 1 : ℕ) : V) :: rest)

/-- `create_bootstrap_dataframe`, bootstrap_sampler.py:304-363. -/
def createBootstrapDataframe [NatCast V] (df : Frame V) (obsCol : String) (sample : List V)
    (dict : List (V × Frame V)) (bootCol : String) : Except Err (Frame V) := do
  checkColumnExistence obsCol df true
  checkColumnExistence bootCol df false
  ensureResampledInDf sample (df.colList obsCol)
  let frames ← componentFrames dict bootCol 0 sample
  concatFrames frames

/-! ## Replicates -/

/-- The tables `generate_jackknife_replicates` estimates on, bootstrap.py:440-476: one per distinct
observation id in ascending order. -/
def jackknifeFrames (df : Frame V) (obsCol : String) : List (Frame V) :=
  (npSort (npUnique (df.colList obsCol))).map fun o => df.loc fun r => df.val obsCol r ≠ o

/-- The table of each bootstrap sample, bootstrap.py:289-334. -/
def bootstrapFrames [NatCast V] (df : Frame V) (obsCol : String) (samples : List (List V)) :
    Except Err (List (Frame V)) :=
  samples.mapM fun s => createBootstrapDataframe df obsCol s (groupbyDict df obsCol) "bootstrap_id"

end Pylogit
