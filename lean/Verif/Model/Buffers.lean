import Verif.Model.Estimators

/-!
# The matrices that the derivative callables overwrite in place

`set_derivatives` of the asymmetric estimators creates, once, the sparse matrices that every later
evaluation fills with new numbers and returns.  The matrices live in a heap, a list of objects; an
object is named by its position.  The evaluation functions are state transformers on the heap, and what
a callable returns is the name of an object, which is only read when the caller uses it.
-/

open Matrix

namespace Pylogit

noncomputable section

variable {R O A B S I K P ι : Type} {n : ℕ}

/-- The objects: a csr matrix with one entry per row on the diagonal (`diags(..., format='csr')`), a csr
matrix with one entry per row, in column `col r` (`rows_to_alts`, choice_tools.py:777-833), and the two
dense arrays of asym_logit.py:645-650.  With one stored entry per row, position `r` of the `data` array
of a csr matrix is the entry of row `r`. -/
inductive Obj (R A B : Type) where
  | diag (data : R → ℝ)
  | alts (col : R → A) (data : R → ℝ)
  | shapeJac (m : Matrix A B ℝ)
  | dense (m : Matrix R B ℝ)

/-- Computations that read and write the heap and may raise. -/
abbrev HeapM (R A B : Type) := StateT (List (Obj R A B)) (Except Err)

/-- A new object. -/
def allocObj (o : Obj R A B) : HeapM R A B ℕ := fun h => .ok (h.length, h ++ [o])

/-- The object with a given name. -/
def getObj (a : ℕ) : HeapM R A B (Obj R A B) := fun h =>
  match h[a]? with
  | some o => .ok (o, h)
  | none => .error .attributeError

/-- Replace the object with a given name. -/
def putObj (a : ℕ) (o : Obj R A B) : HeapM R A B Unit := fun h => .ok ((), h.set a o)

/-- `m.copy()`. -/
def copyObj (a : ℕ) : HeapM R A B ℕ := do
  let o ← getObj a
  allocObj o

/-- `m.data = values` for a sparse matrix. -/
def setData (a : ℕ) (d : R → ℝ) : HeapM R A B Unit := do
  match ← getObj a with
  | .diag _ => putObj a (.diag d)
  | .alts c _ => putObj a (.alts c d)
  | _ => throw .attributeError

/-- `m[:, :] = values` for an array over the shapes. -/
def fillShapeJac (a : ℕ) (m : Matrix A B ℝ) : HeapM R A B Unit := do
  match ← getObj a with
  | .shapeJac _ => putObj a (.shapeJac m)
  | _ => throw .valueError

/-- `m[:, :] = values` for an array over the rows. -/
def fillDense (a : ℕ) (m : Matrix R B ℝ) : HeapM R A B Unit := do
  match ← getObj a with
  | .dense _ => putObj a (.dense m)
  | _ => throw .valueError

/-- The numbers of a csr matrix over the alternatives. -/
def altsMatrix [DecidableEq A] (col : R → A) (data : R → ℝ) : Matrix R A ℝ :=
  Matrix.of fun r j => if col r = j then data r else 0

/-- Use of an object as a matrix over rows and alternatives. -/
def readAlts [DecidableEq A] (a : ℕ) : HeapM R A B (Matrix R A ℝ) := do
  match ← getObj a with
  | .alts c d => return altsMatrix c d
  | _ => throw .valueError

/-- Use of an object as a square matrix over the rows. -/
def readDiag [DecidableEq R] (a : ℕ) : HeapM R A B (Matrix R R ℝ) := do
  match ← getObj a with
  | .diag d => return Matrix.diagonal d
  | _ => throw .valueError

/-- Use of an object as a dense matrix over the rows. -/
def readDense (a : ℕ) : HeapM R A B (Matrix R B ℝ) := do
  match ← getObj a with
  | .dense m => return m
  | _ => throw .valueError

/-- Use of an object as a matrix over the shapes. -/
def readShapeJac (a : ℕ) : HeapM R A B (Matrix A B ℝ) := do
  match ← getObj a with
  | .shapeJac m => return m
  | _ => throw .valueError

/-- What `set_derivatives` stores on the estimation object (scobit.py:606-617 and its analogues): the
callables `calc_dh_dv` and `calc_dh_d_shape`, the constant `dh_d_alpha`, and the mapping they read.
`readC` is how the result of `calc_dh_d_shape` is used. -/
structure BufCalls (R A B S I : Type) where
  rowsToAlts : ℕ
  dhdalpha : Matrix R I ℝ
  calcDhDv : (S → ℝ) → (R → ℝ) → HeapM R A B ℕ
  calcDhDc : (S → ℝ) → (R → ℝ) → HeapM R A B ℕ
  readC : ℕ → HeapM R A B (Matrix R S ℝ)

/-! ## The callables of each model -/

/-- `set_derivatives` of the multinomial logit, conditional_logit.py:177-189: `calc_dh_dv` always returns the
matrix made here; the other two callables return `None`, which no caller reads. -/
def mnlCalls (rta dhDv : ℕ) : BufCalls R A B Empty Empty where
  rowsToAlts := rta
  dhdalpha := fun _ e => e.elim
  calcDhDv := fun _ _ => return dhDv
  calcDhDc := fun _ _ => return 0
  readC := fun _ => return fun _ e => e.elim

/-- `set_derivatives` of the multinomial logit, conditional_logit.py:177-189. -/
def mnlSetDerivatives (rta : ℕ) : HeapM R A B (BufCalls R A B Empty Empty) := do
  let dhDv ← allocObj (.diag fun _ => 1)
  return mnlCalls rta dhDv

/-- `_cloglog_transform_deriv_v` with `output_array`, clog_log.py:211-285. -/
def clogDerivVCall (out : ℕ) (v : R → ℝ) : HeapM R A B ℕ := do
  setData out fun r => clogDerivV (v r)
  return out

/-- The callables of clog_log.py:344-415, on given matrices.  `_cloglog_transform_deriv_c` (clog_log.py:288-296)
returns `None`, which no caller reads. -/
def clogCalls (rta dhDv : ℕ) (dhDAlpha : Matrix R I ℝ) : BufCalls R A B Empty I where
  rowsToAlts := rta
  dhdalpha := dhDAlpha
  calcDhDv := fun _ v => clogDerivVCall dhDv v
  calcDhDc := fun _ _ => return 0
  readC := fun _ => return fun _ e => e.elim

/-- `create_calc_dh_dv` and `create_calc_dh_d_alpha`, clog_log.py:344-415, with `rows_to_alts` the object
`rta`. -/
def clogSetDerivatives (ref : Fin (n + 1)) (rta : ℕ) :
    HeapM R (Fin (n + 1)) B (BufCalls R (Fin (n + 1)) B Empty (Fin n)) := do
  let dhDv ← allocObj (.diag fun _ => 1)
  let m ← readAlts rta
  return clogCalls rta dhDv (dhDAlpha ref m)

/-- `_scobit_transform_deriv_v` with `output_array`, scobit.py:216-294. -/
def scobitDerivVCall [DecidableEq A] [Fintype A] (rta out : ℕ) (s : A → ℝ) (v : R → ℝ) :
    HeapM R A B ℕ := do
  let m ← readAlts rta
  setData out fun r => scobitDerivV ((m *ᵥ fun j => Real.exp (s j)) r) (v r)
  return out

/-- `_scobit_transform_deriv_shape` with `output_array`, scobit.py:297-374. -/
def scobitDerivShapeCall [DecidableEq A] [Fintype A] (rta out : ℕ) (s : A → ℝ) (v : R → ℝ) :
    HeapM R A B ℕ := do
  let m ← readAlts rta
  setData out fun r => scobitDerivShape ((m *ᵥ fun j => Real.exp (s j)) r) (v r)
  return out

/-- The callables of scobit.py:422-525, on given matrices. -/
def scobitCalls [DecidableEq A] [Fintype A] (rta dhDv dhDShape : ℕ) (dhDAlpha : Matrix R I ℝ) :
    BufCalls R A B A I where
  rowsToAlts := rta
  dhdalpha := dhDAlpha
  calcDhDv := scobitDerivVCall rta dhDv
  calcDhDc := scobitDerivShapeCall rta dhDShape
  readC := readAlts

/-- `create_calc_dh_dv`, `create_calc_dh_d_alpha` and `create_calc_dh_d_shape`, scobit.py:422-525. -/
def scobitSetDerivatives (ref : Fin (n + 1)) (rta : ℕ) :
    HeapM R (Fin (n + 1)) B (BufCalls R (Fin (n + 1)) B (Fin (n + 1)) (Fin n)) := do
  let dhDv ← allocObj (.diag fun _ => 1)
  let m ← readAlts rta
  let dhDShape ← copyObj rta
  return scobitCalls rta dhDv dhDShape (dhDAlpha ref m)

/-- `_uneven_transform_deriv_v` with `output_array`, uneven_logit.py:241-304. -/
def unevenDerivVCall [DecidableEq A] [Fintype A] (rta out : ℕ) (s : A → ℝ) (v : R → ℝ) :
    HeapM R A B ℕ := do
  let m ← readAlts rta
  setData out fun r => unevenDerivV ((m *ᵥ fun j => Real.exp (s j)) r) (v r)
  return out

/-- `_uneven_transform_deriv_shape` with `output_array`, uneven_logit.py:307-374. -/
def unevenDerivShapeCall [DecidableEq A] [Fintype A] (rta out : ℕ) (s : A → ℝ) (v : R → ℝ) :
    HeapM R A B ℕ := do
  let m ← readAlts rta
  setData out fun r => unevenDerivShape ((m *ᵥ fun j => Real.exp (s j)) r) (v r)
  return out

/-- The callables of uneven_logit.py:422-525, on given matrices. -/
def unevenCalls [DecidableEq A] [Fintype A] (rta dhDv dhDShape : ℕ) (dhDAlpha : Matrix R I ℝ) :
    BufCalls R A B A I where
  rowsToAlts := rta
  dhdalpha := dhDAlpha
  calcDhDv := unevenDerivVCall rta dhDv
  calcDhDc := unevenDerivShapeCall rta dhDShape
  readC := readAlts

/-- `create_calc_dh_dv`, `create_calc_dh_d_alpha` and `create_calc_dh_d_shape`,
uneven_logit.py:422-525. -/
def unevenSetDerivatives (ref : Fin (n + 1)) (rta : ℕ) :
    HeapM R (Fin (n + 1)) B (BufCalls R (Fin (n + 1)) B (Fin (n + 1)) (Fin n)) := do
  let dhDv ← allocObj (.diag fun _ => 1)
  let m ← readAlts rta
  let dhDShape ← copyObj rta
  return unevenCalls rta dhDv dhDShape (dhDAlpha ref m)

/-- `_asym_transform_deriv_v` with `output_array`, asym_logit.py:350-435. -/
def asymDerivVCall (sref : Fin (n + 1)) (rta out : ℕ) (eta : Fin n → ℝ) (v : R → ℝ) :
    HeapM R (Fin (n + 1)) B ℕ := do
  let m ← readAlts rta
  setData out fun r => asymDerivV (n + 1) ((m *ᵥ convertEtaToC sref eta) r) (v r)
  return out

/-- `_calc_deriv_c_with_respect_to_eta` with `output_array`, asym_logit.py:184-225. -/
def derivCEtaCall (sref : Fin (n + 1)) (out : ℕ) (c : Fin (n + 1) → ℝ) :
    HeapM R (Fin (n + 1)) (Fin n) ℕ := do
  fillShapeJac out (derivCEta sref c)
  return out

/-- `_asym_transform_deriv_shape` with its three arrays, asym_logit.py:438-541. -/
def asymDerivShapeCall (sref : Fin (n + 1)) (rta dhDc dcDEta out : ℕ) (eta : Fin n → ℝ) (v : R → ℝ) :
    HeapM R (Fin (n + 1)) (Fin n) ℕ := do
  let m ← readAlts rta
  setData dhDc fun r => asymDerivC ((m *ᵥ convertEtaToC sref eta) r) (v r)
  let j ← derivCEtaCall sref dcDEta (convertEtaToC sref eta)
  let mc ← readAlts dhDc
  let mj ← readShapeJac j
  fillDense out (mc * mj)
  return out

/-- The callables of asym_logit.py:589-707, on given matrices. -/
def asymCalls (sref : Fin (n + 1)) (rta dhDv dcDEta dhDc dhDEta : ℕ) (dhDAlpha : Matrix R I ℝ) :
    BufCalls R (Fin (n + 1)) (Fin n) (Fin n) I where
  rowsToAlts := rta
  dhdalpha := dhDAlpha
  calcDhDv := asymDerivVCall sref rta dhDv
  calcDhDc := asymDerivShapeCall sref rta dhDc dcDEta dhDEta
  readC := readDense

/-- `create_calc_dh_dv`, `create_calc_dh_d_alpha` and `create_calc_dh_d_shape`, asym_logit.py:589-707. -/
def asymSetDerivatives (sref ref : Fin (n + 1)) (rta : ℕ) :
    HeapM R (Fin (n + 1)) (Fin n) (BufCalls R (Fin (n + 1)) (Fin n) (Fin n) (Fin n)) := do
  let dhDv ← allocObj (.diag fun _ => 1)
  let m ← readAlts rta
  let dcDEta ← allocObj (.shapeJac 0)
  let dhDc ← copyObj rta
  let dhDEta ← allocObj (.dense 0)
  return asymCalls sref rta dhDv dcDEta dhDc dhDEta (dhDAlpha ref m)

/-! ## Evaluations -/

/-- The systematic utilities and the three derivative matrices inside `calc_gradient`, `calc_hessian` and
`calc_fisher_info_matrix` (choice_calcs.py:406-425, 668-685, 931-949): both callables have run before
either result is used. -/
def callDerivs [DecidableEq R] (b : BufCalls R A B S I) (shape : S → ℝ) (v : R → ℝ) :
    HeapM R A B (Derivs R S I) := do
  let c ← b.calcDhDc shape v
  let w ← b.calcDhDv shape v
  let mc ← b.readC c
  let mw ← readDiag w
  return { dhdc := mc, dhdalpha := b.dhdalpha, dhdv := mw }

/-- What can be asked of an estimation object (estimation.py:208-227, 306-417). -/
inductive Request (P : Type) where
  | logLik (x : P → ℝ)
  | objective (x : P → ℝ)
  | negHessian (x : P → ℝ)
  | fisher (x : P → ℝ)

/-- What it answers. -/
inductive Answer (P : Type) where
  | number (y : ℝ)
  | pair (y : ℝ) (g : P → ℝ)
  | square (m : Matrix P P ℝ)

/-- An estimation object: its derivative callables; how it splits the parameters; and the functions it
evaluates, given the matrices it finds (`pure` is the estimator with those matrices). -/
structure BufEstimator (R A B S I K P : Type) where
  calls : BufCalls R A B S I
  design : Matrix R K ℝ
  shapeOf : (P → ℝ) → S → ℝ
  betaOf : (P → ℝ) → K → ℝ
  pure : Matrix R A ℝ → Derivs R S I → Estimator P
  fisher : Matrix R A ℝ → Derivs R S I → (P → ℝ) → Matrix P P ℝ

/-- One evaluation (estimation.py:208-227, 306-417).  `objective` is
`calc_neg_log_likelihood_and_neg_gradient`.  The log-likelihood does not use the derivatives. -/
def BufEstimator.answer [DecidableEq R] [DecidableEq A] [Fintype K] [DecidableEq P]
    (e : BufEstimator R A B S I K P) : Request P → HeapM R A B (Answer P)
  | .logLik x => do
      let m ← readAlts e.calls.rowsToAlts
      return .number ((e.pure m ⟨0, 0, 0⟩).logLik x)
  | .objective x => do
      let m ← readAlts e.calls.rowsToAlts
      let d ← callDerivs e.calls (e.shapeOf x) (e.design *ᵥ e.betaOf x)
      let r := (e.pure m d).negLLAndGrad x
      return .pair r.1 r.2
  | .negHessian x => do
      let m ← readAlts e.calls.rowsToAlts
      let d ← callDerivs e.calls (e.shapeOf x) (e.design *ᵥ e.betaOf x)
      return .square ((e.pure m d).negHessian x)
  | .fisher x => do
      let m ← readAlts e.calls.rowsToAlts
      let d ← callDerivs e.calls (e.shapeOf x) (e.design *ᵥ e.betaOf x)
      return .square (e.fisher m d x)

/-- A history of evaluations on one estimation object. -/
def BufEstimator.answers [DecidableEq R] [DecidableEq A] [Fintype K] [DecidableEq P]
    (e : BufEstimator R A B S I K P) : List (Request P) → HeapM R A B (List (Answer P))
  | [] => return []
  | q :: qs => do
      let a ← e.answer q
      let as ← e.answers qs
      return a :: as

section Make

variable [Fintype R] [DecidableEq R] [Nonempty R] [Fintype O] [Fintype K] [DecidableEq K]
  [Fintype S] [DecidableEq S] [Fintype I] [DecidableEq I]

/-- An estimation object with shapes and outside intercepts. -/
def bufBoth (T : Transform R A S I ι) (b : BufCalls R A B S I) (d : FitData R O A K ι)
    (ridge : Option ℝ) (weights : Option (R → ℝ)) (constrained : Option (List (S ⊕ (I ⊕ K)))) :
    BufEstimator R A B S I K (S ⊕ (I ⊕ K)) where
  calls := b
  design := d.design
  shapeOf x := fun i => x (.inl i)
  betaOf x := fun k => x (.inr (.inr k))
  pure m D := estimatorBoth T (fun _ _ => D) { d with rowsToAlts := m } ridge weights constrained
  fisher m D x := fisherBoth D d.design d.choice
    (modelProbs (fun k => x (.inr (.inr k))) d.design d.altIDs d.rowsToObs m T
      (some fun i => x (.inr (.inl i))) (some fun i => x (.inl i))) d.rowsToObs ridge
    (estWeights weights)

/-- An estimation object with shapes and no outside intercepts. -/
def bufShape (T : Transform R A S I ι) (b : BufCalls R A B S I) (d : FitData R O A K ι)
    (ridge : Option ℝ) (weights : Option (R → ℝ)) (constrained : Option (List (S ⊕ K))) :
    BufEstimator R A B S I K (S ⊕ K) where
  calls := b
  design := d.design
  shapeOf x := fun i => x (.inl i)
  betaOf x := fun k => x (.inr k)
  pure m D := estimatorShape T (fun _ _ => D) { d with rowsToAlts := m } ridge weights constrained
  fisher m D x := fisherShape D d.design d.choice
    (modelProbs (fun k => x (.inr k)) d.design d.altIDs d.rowsToObs m T
      none (some fun i => x (.inl i))) d.rowsToObs ridge (estWeights weights)

/-- An estimation object with outside intercepts and no shapes. -/
def bufIcpt (T : Transform R A Empty I ι) (b : BufCalls R A B Empty I) (d : FitData R O A K ι)
    (ridge : Option ℝ) (weights : Option (R → ℝ)) (constrained : Option (List (I ⊕ K))) :
    BufEstimator R A B Empty I K (I ⊕ K) where
  calls := b
  design := d.design
  shapeOf _ := Empty.elim
  betaOf x := fun k => x (.inr k)
  pure m D := estimatorIcpt T (fun _ => D) { d with rowsToAlts := m } ridge weights constrained
  fisher m D x := fisherIcpt D d.design d.choice
    (modelProbs (fun k => x (.inr k)) d.design d.altIDs d.rowsToObs m T
      (some fun i => x (.inl i)) none) d.rowsToObs ridge (estWeights weights)

/-- An estimation object with index coefficients only. -/
def bufNone (T : Transform R A Empty I ι) (b : BufCalls R A B Empty I) (d : FitData R O A K ι)
    (ridge : Option ℝ) (weights : Option (R → ℝ)) (constrained : Option (List K)) :
    BufEstimator R A B Empty I K K where
  calls := b
  design := d.design
  shapeOf _ := Empty.elim
  betaOf x := x
  pure m D := estimatorNone T (fun _ => D) { d with rowsToAlts := m } ridge weights constrained
  fisher m D x := fisherNone D d.design d.choice
    (modelProbs x d.design d.altIDs d.rowsToObs m T none none) d.rowsToObs ridge (estWeights weights)

end Make

end

end Pylogit
