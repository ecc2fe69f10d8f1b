import Verif.Spec.Buffers

/-!
# Evaluations have no memory

C83.  The derivative callables overwrite the matrices made by `set_derivatives`; nevertheless each
evaluation gives what the functions of the parameters alone give, and the mapping from rows to
alternatives, of which the callables overwrite a copy, is never changed.
-/

open Matrix

namespace Pylogit

noncomputable section

variable {R O A B S I K P ι : Type} {n : ℕ}

/-! ## Heap steps -/

theorem getObj_ok {h : List (Obj R A B)} {a : ℕ} {o : Obj R A B} (ho : h[a]? = some o) :
    getObj a h = .ok (o, h) := by
  simp [getObj, ho]

theorem readAlts_ok [DecidableEq A] {h : List (Obj R A B)} {a : ℕ} {c : R → A} {d : R → ℝ}
    (ho : h[a]? = some (.alts c d)) : readAlts a h = .ok (altsMatrix c d, h) := by
  simp [readAlts, bind, StateT.bind, Except.bind, getObj_ok ho, pure, StateT.pure, Except.pure]

theorem readDiag_ok [DecidableEq R] {h : List (Obj R A B)} {a : ℕ} {d : R → ℝ}
    (ho : h[a]? = some (.diag d)) : readDiag a h = .ok (Matrix.diagonal d, h) := by
  simp [readDiag, bind, StateT.bind, Except.bind, getObj_ok ho, pure, StateT.pure, Except.pure]

theorem readDense_ok {h : List (Obj R A B)} {a : ℕ} {m : Matrix R B ℝ}
    (ho : h[a]? = some (.dense m)) : readDense a h = .ok (m, h) := by
  simp [readDense, bind, StateT.bind, Except.bind, getObj_ok ho, pure, StateT.pure, Except.pure]

theorem readShapeJac_ok {h : List (Obj R A B)} {a : ℕ} {m : Matrix A B ℝ}
    (ho : h[a]? = some (.shapeJac m)) : readShapeJac a h = .ok (m, h) := by
  simp [readShapeJac, bind, StateT.bind, Except.bind, getObj_ok ho, pure, StateT.pure, Except.pure]

theorem setData_diag {h : List (Obj R A B)} {a : ℕ} {d : R → ℝ} (d' : R → ℝ)
    (ho : h[a]? = some (.diag d)) : setData a d' h = .ok ((), h.set a (.diag d')) := by
  simp [setData, bind, StateT.bind, Except.bind, getObj_ok ho, putObj]

theorem setData_alts {h : List (Obj R A B)} {a : ℕ} {c : R → A} {d : R → ℝ} (d' : R → ℝ)
    (ho : h[a]? = some (.alts c d)) : setData a d' h = .ok ((), h.set a (.alts c d')) := by
  simp [setData, bind, StateT.bind, Except.bind, getObj_ok ho, putObj]

theorem fillShapeJac_ok {h : List (Obj R A B)} {a : ℕ} {m : Matrix A B ℝ} (m' : Matrix A B ℝ)
    (ho : h[a]? = some (.shapeJac m)) :
    fillShapeJac a m' h = .ok ((), h.set a (.shapeJac m')) := by
  simp [fillShapeJac, bind, StateT.bind, Except.bind, getObj_ok ho, putObj]

theorem fillDense_ok {h : List (Obj R A B)} {a : ℕ} {m : Matrix R B ℝ} (m' : Matrix R B ℝ)
    (ho : h[a]? = some (.dense m)) :
    fillDense a m' h = .ok ((), h.set a (.dense m')) := by
  simp [fillDense, bind, StateT.bind, Except.bind, getObj_ok ho, putObj]

theorem heap_new (h l : List (Obj R A B)) (k : ℕ) : (h ++ l)[h.length + k]? = l[k]? := by
  rw [List.getElem?_append_right (by omega)]; simp

theorem heap_old {h : List (Obj R A B)} (l : List (Obj R A B)) {a : ℕ} (ha : a < h.length) :
    (h ++ l)[a]? = h[a]? := List.getElem?_append_left ha

theorem heap_set (h l : List (Obj R A B)) (k : ℕ) (o : Obj R A B) :
    (h ++ l).set (h.length + k) o = h ++ l.set k o := by
  rw [List.set_append_right _ _ (by omega)]; simp

theorem heap_lt {h : List (Obj R A B)} {a : ℕ} {o : Obj R A B} (ho : h[a]? = some o) :
    a < h.length := by
  by_contra hc
  rw [List.getElem?_eq_none (by omega)] at ho
  cases ho

/-- Overwriting the data of a copy of the mapping scales its rows. -/
theorem altsMatrix_data [DecidableEq A] (col : R → A) (f : R → ℝ) :
    altsMatrix col f = scaleRows (altsMatrix col fun _ => 1) f := by
  ext r j
  simp [altsMatrix, scaleRows]

theorem indicator_eq [DecidableEq A] {m : Matrix R A ℝ} {col : R → A}
    (h : ∀ r j, m r j = if col r = j then 1 else 0) : m = altsMatrix col fun _ => 1 := by
  ext r j
  rw [h]
  rfl

/-! ## Histories -/

/-- If the calls keep an invariant and give the pure derivatives, a history of requests gives the pure
answers. -/
theorem answers_of_invariant [DecidableEq R] [DecidableEq A] [Fintype K] [DecidableEq P]
    (e : BufEstimator R A B S I K P) (inv : List (Obj R A B) → Prop) (m : Matrix R A ℝ)
    (D : (S → ℝ) → (R → ℝ) → Derivs R S I) (ans : Request P → Answer P)
    (hread : ∀ h, inv h → readAlts e.calls.rowsToAlts h = .ok (m, h))
    (hcall : ∀ h s v, inv h → ∃ h', callDerivs e.calls s v h = .ok (D s v, h') ∧ inv h')
    (hL : ∀ x, ans (.logLik x) = .number ((e.pure m ⟨0, 0, 0⟩).logLik x))
    (hO : ∀ x, ans (.objective x) =
      .pair ((e.pure m (D (e.shapeOf x) (e.design *ᵥ e.betaOf x))).negLLAndGrad x).1
        ((e.pure m (D (e.shapeOf x) (e.design *ᵥ e.betaOf x))).negLLAndGrad x).2)
    (hH : ∀ x, ans (.negHessian x) =
      .square ((e.pure m (D (e.shapeOf x) (e.design *ᵥ e.betaOf x))).negHessian x))
    (hF : ∀ x, ans (.fisher x) =
      .square (e.fisher m (D (e.shapeOf x) (e.design *ᵥ e.betaOf x)) x))
    (qs : List (Request P)) (h : List (Obj R A B)) (hh : inv h) :
    ∃ h', e.answers qs h = .ok (qs.map ans, h') ∧ inv h' := by
  have step : ∀ q h, inv h → ∃ h', e.answer q h = .ok (ans q, h') ∧ inv h' := by
    intro q h hh
    cases q with
    | logLik x =>
        refine ⟨h, ?_, hh⟩
        simp [BufEstimator.answer, bind, StateT.bind, Except.bind, hread h hh, pure, StateT.pure,
          Except.pure, hL]
    | objective x =>
        obtain ⟨h', hc, hi⟩ := hcall h (e.shapeOf x) (e.design *ᵥ e.betaOf x) hh
        refine ⟨h', ?_, hi⟩
        simp [BufEstimator.answer, bind, StateT.bind, Except.bind, hread h hh, pure, StateT.pure,
          Except.pure, hc, hO]
    | negHessian x =>
        obtain ⟨h', hc, hi⟩ := hcall h (e.shapeOf x) (e.design *ᵥ e.betaOf x) hh
        refine ⟨h', ?_, hi⟩
        simp [BufEstimator.answer, bind, StateT.bind, Except.bind, hread h hh, pure, StateT.pure,
          Except.pure, hc, hH]
    | fisher x =>
        obtain ⟨h', hc, hi⟩ := hcall h (e.shapeOf x) (e.design *ᵥ e.betaOf x) hh
        refine ⟨h', ?_, hi⟩
        simp [BufEstimator.answer, bind, StateT.bind, Except.bind, hread h hh, pure, StateT.pure,
          Except.pure, hc, hF]
  induction qs generalizing h with
  | nil => exact ⟨h, by simp [BufEstimator.answers, pure, StateT.pure, Except.pure], hh⟩
  | cons q qs ih =>
      obtain ⟨h₁, e₁, i₁⟩ := step q h hh
      obtain ⟨h₂, e₂, i₂⟩ := ih h₁ i₁
      refine ⟨h₂, ?_, i₂⟩
      simp [BufEstimator.answers, bind, StateT.bind, Except.bind, e₁, e₂, pure, StateT.pure,
        Except.pure]

/-! ## The calls of each model -/

theorem bind_ok {α β : Type} {f : HeapM R A B α} {g : α → HeapM R A B β} {h h' : List (Obj R A B)} {a : α}
    (hf : f h = .ok (a, h')) : (f >>= g) h = g a h' := by
  simp [bind, StateT.bind, hf, Except.bind]

theorem pure_ok {α : Type} (a : α) (h : List (Obj R A B)) :
    (pure a : HeapM R A B α) h = .ok (a, h) := rfl

section Calls

variable [DecidableEq R] {col : R → Fin (n + 1)} {h₀ : List (Obj R (Fin (n + 1)) B)} {rta : ℕ}

omit [DecidableEq R] in
theorem clog_set (ref : Fin (n + 1)) (hr : h₀[rta]? = some (.alts col fun _ => 1)) :
    clogSetDerivatives ref rta h₀ =
      .ok (clogCalls rta h₀.length (dhDAlpha ref (altsMatrix col fun _ => 1)),
        h₀ ++ [.diag fun _ => 1]) := by
  have h1 : ∀ l, (h₀ ++ l)[rta]? = some (.alts col fun _ => 1) := fun l => by
    rw [heap_old _ (heap_lt hr), hr]
  rw [clogSetDerivatives, bind_ok (a := h₀.length) (h' := h₀ ++ [.diag fun _ => 1]) rfl,
    bind_ok (readAlts_ok (h1 _)), pure_ok]

theorem clog_call (ref : Fin (n + 1)) (s : Empty → ℝ) (v : R → ℝ) (x : R → ℝ) :
    callDerivs (clogCalls rta h₀.length (dhDAlpha ref (altsMatrix col fun _ => 1))) s v
        (h₀ ++ [.diag x]) =
      .ok (clogDerivs ref (altsMatrix col fun _ => 1) v, h₀ ++ [.diag fun r => clogDerivV (v r)]) := by
  have g0 : ∀ l, (h₀ ++ l)[h₀.length]? = l[0]? := fun l => heap_new h₀ l 0
  have s0 : ∀ l o, (h₀ ++ l).set h₀.length o = h₀ ++ l.set 0 o := fun l o => heap_set h₀ l 0 o
  have c1 : clogDerivVCall h₀.length v (h₀ ++ [.diag x]) =
      .ok (h₀.length, h₀ ++ [.diag fun r => clogDerivV (v r)]) := by
    rw [clogDerivVCall, bind_ok (setData_diag (d := x) _ (by rw [g0]; rfl)), s0]; rfl
  change ((pure 0 : HeapM R (Fin (n + 1)) B ℕ) >>= fun c => clogDerivVCall h₀.length v >>= fun w =>
    (pure (fun _ e => e.elim : Matrix R Empty ℝ) : HeapM R (Fin (n + 1)) B _) >>= fun mc =>
      readDiag w >>= fun mw => pure _) _ = _
  rw [bind_ok (pure_ok _ _), bind_ok c1, bind_ok (pure_ok _ _), bind_ok (readDiag_ok (d := fun r => clogDerivV (v r)) (by rw [g0]; rfl)), pure_ok]
  rfl

omit [DecidableEq R] in
theorem scobit_set (ref : Fin (n + 1)) (hr : h₀[rta]? = some (.alts col fun _ => 1)) :
    scobitSetDerivatives ref rta h₀ =
      .ok (scobitCalls rta h₀.length (h₀.length + 1) (dhDAlpha ref (altsMatrix col fun _ => 1)),
        h₀ ++ [.diag fun _ => 1, .alts col fun _ => 1]) := by
  have h1 : ∀ l, (h₀ ++ l)[rta]? = some (.alts col fun _ => 1) := fun l => by
    rw [heap_old _ (heap_lt hr), hr]
  rw [scobitSetDerivatives, bind_ok (a := h₀.length) (h' := h₀ ++ [.diag fun _ => 1]) rfl,
    bind_ok (readAlts_ok (h1 _)), bind_ok (a := h₀.length + 1)
      (h' := h₀ ++ [.diag fun _ => 1, .alts col fun _ => 1])
      (by rw [copyObj, bind_ok (getObj_ok (h1 _)), allocObj]; simp), pure_ok]

theorem scobit_call (ref : Fin (n + 1)) (hr : h₀[rta]? = some (.alts col fun _ => 1))
    (s : Fin (n + 1) → ℝ) (v : R → ℝ) (x y : R → ℝ) :
    ∃ x' y', callDerivs (scobitCalls rta h₀.length (h₀.length + 1)
        (dhDAlpha ref (altsMatrix col fun _ => 1))) s v (h₀ ++ [.diag x, .alts col y]) =
      .ok (scobitDerivs ref (altsMatrix col fun _ => 1) s v, h₀ ++ [.diag x', .alts col y']) := by
  have h1 : ∀ l, (h₀ ++ l)[rta]? = some (.alts col fun _ => 1) := fun l => by
    rw [heap_old _ (heap_lt hr), hr]
  have g0 : ∀ l, (h₀ ++ l)[h₀.length]? = l[0]? := fun l => heap_new h₀ l 0
  have s0 : ∀ l o, (h₀ ++ l).set h₀.length o = h₀ ++ l.set 0 o := fun l o => heap_set h₀ l 0 o
  refine ⟨fun r => scobitDerivV ((altsMatrix col (fun _ => 1) *ᵥ fun j => Real.exp (s j)) r) (v r),
    fun r => scobitDerivShape ((altsMatrix col (fun _ => 1) *ᵥ fun j => Real.exp (s j)) r) (v r), ?_⟩
  have c1 : scobitDerivShapeCall rta (h₀.length + 1) s v (h₀ ++ [.diag x, .alts col y]) =
      .ok (h₀.length + 1, h₀ ++ [.diag x, .alts col fun r => scobitDerivShape
        ((altsMatrix col (fun _ => 1) *ᵥ fun j => Real.exp (s j)) r) (v r)]) := by
    rw [scobitDerivShapeCall, bind_ok (readAlts_ok (h1 _)),
      bind_ok (setData_alts (c := col) (d := y) _ (by rw [heap_new]; rfl)), heap_set]; rfl
  have c2 : ∀ y', scobitDerivVCall rta h₀.length s v (h₀ ++ [.diag x, .alts col y']) =
      .ok (h₀.length, h₀ ++ [.diag fun r => scobitDerivV
        ((altsMatrix col (fun _ => 1) *ᵥ fun j => Real.exp (s j)) r) (v r), .alts col y']) := by
    intro y'
    rw [scobitDerivVCall, bind_ok (readAlts_ok (h1 _)),
      bind_ok (setData_diag (d := x) _ (by rw [g0]; rfl)), s0]; rfl
  change (scobitDerivShapeCall rta (h₀.length + 1) s v >>= fun c => scobitDerivVCall rta h₀.length s v >>=
    fun w => readAlts c >>= fun mc => readDiag w >>= fun mw => pure _) _ = _
  rw [bind_ok c1, bind_ok (c2 _), bind_ok (readAlts_ok (by rw [heap_new]; rfl)),
    bind_ok (readDiag_ok (by rw [g0]; rfl)), pure_ok, altsMatrix_data]
  rfl

omit [DecidableEq R] in
theorem uneven_set (ref : Fin (n + 1)) (hr : h₀[rta]? = some (.alts col fun _ => 1)) :
    unevenSetDerivatives ref rta h₀ =
      .ok (unevenCalls rta h₀.length (h₀.length + 1) (dhDAlpha ref (altsMatrix col fun _ => 1)),
        h₀ ++ [.diag fun _ => 1, .alts col fun _ => 1]) := by
  have h1 : ∀ l, (h₀ ++ l)[rta]? = some (.alts col fun _ => 1) := fun l => by
    rw [heap_old _ (heap_lt hr), hr]
  rw [unevenSetDerivatives, bind_ok (a := h₀.length) (h' := h₀ ++ [.diag fun _ => 1]) rfl,
    bind_ok (readAlts_ok (h1 _)), bind_ok (a := h₀.length + 1)
      (h' := h₀ ++ [.diag fun _ => 1, .alts col fun _ => 1])
      (by rw [copyObj, bind_ok (getObj_ok (h1 _)), allocObj]; simp), pure_ok]

theorem uneven_call (ref : Fin (n + 1)) (hr : h₀[rta]? = some (.alts col fun _ => 1))
    (s : Fin (n + 1) → ℝ) (v : R → ℝ) (x y : R → ℝ) :
    ∃ x' y', callDerivs (unevenCalls rta h₀.length (h₀.length + 1)
        (dhDAlpha ref (altsMatrix col fun _ => 1))) s v (h₀ ++ [.diag x, .alts col y]) =
      .ok (unevenDerivs ref (altsMatrix col fun _ => 1) s v, h₀ ++ [.diag x', .alts col y']) := by
  have h1 : ∀ l, (h₀ ++ l)[rta]? = some (.alts col fun _ => 1) := fun l => by
    rw [heap_old _ (heap_lt hr), hr]
  have g0 : ∀ l, (h₀ ++ l)[h₀.length]? = l[0]? := fun l => heap_new h₀ l 0
  have s0 : ∀ l o, (h₀ ++ l).set h₀.length o = h₀ ++ l.set 0 o := fun l o => heap_set h₀ l 0 o
  refine ⟨fun r => unevenDerivV ((altsMatrix col (fun _ => 1) *ᵥ fun j => Real.exp (s j)) r) (v r),
    fun r => unevenDerivShape ((altsMatrix col (fun _ => 1) *ᵥ fun j => Real.exp (s j)) r) (v r), ?_⟩
  have c1 : unevenDerivShapeCall rta (h₀.length + 1) s v (h₀ ++ [.diag x, .alts col y]) =
      .ok (h₀.length + 1, h₀ ++ [.diag x, .alts col fun r => unevenDerivShape
        ((altsMatrix col (fun _ => 1) *ᵥ fun j => Real.exp (s j)) r) (v r)]) := by
    rw [unevenDerivShapeCall, bind_ok (readAlts_ok (h1 _)),
      bind_ok (setData_alts (c := col) (d := y) _ (by rw [heap_new]; rfl)), heap_set]; rfl
  have c2 : ∀ y', unevenDerivVCall rta h₀.length s v (h₀ ++ [.diag x, .alts col y']) =
      .ok (h₀.length, h₀ ++ [.diag fun r => unevenDerivV
        ((altsMatrix col (fun _ => 1) *ᵥ fun j => Real.exp (s j)) r) (v r), .alts col y']) := by
    intro y'
    rw [unevenDerivVCall, bind_ok (readAlts_ok (h1 _)),
      bind_ok (setData_diag (d := x) _ (by rw [g0]; rfl)), s0]; rfl
  change (unevenDerivShapeCall rta (h₀.length + 1) s v >>= fun c => unevenDerivVCall rta h₀.length s v >>=
    fun w => readAlts c >>= fun mc => readDiag w >>= fun mw => pure _) _ = _
  rw [bind_ok c1, bind_ok (c2 _), bind_ok (readAlts_ok (by rw [heap_new]; rfl)),
    bind_ok (readDiag_ok (by rw [g0]; rfl)), pure_ok, altsMatrix_data]
  rfl

end Calls

section AsymCalls

variable [DecidableEq R] {col : R → Fin (n + 1)} {h₀ : List (Obj R (Fin (n + 1)) (Fin n))} {rta : ℕ}

omit [DecidableEq R] in
theorem asym_set (sref ref : Fin (n + 1)) (hr : h₀[rta]? = some (.alts col fun _ => 1)) :
    asymSetDerivatives sref ref rta h₀ =
      .ok (asymCalls sref rta h₀.length (h₀.length + 1) (h₀.length + 2) (h₀.length + 3)
          (dhDAlpha ref (altsMatrix col fun _ => 1)),
        h₀ ++ [.diag fun _ => 1, .shapeJac 0, .alts col fun _ => 1, .dense 0]) := by
  have h1 : ∀ l, (h₀ ++ l)[rta]? = some (.alts col fun _ => 1) := fun l => by
    rw [heap_old _ (heap_lt hr), hr]
  rw [asymSetDerivatives, bind_ok (a := h₀.length) (h' := h₀ ++ [.diag fun _ => 1]) rfl,
    bind_ok (readAlts_ok (h1 _)), bind_ok (a := h₀.length + 1)
      (h' := h₀ ++ [.diag fun _ => 1, .shapeJac 0]) (by rw [allocObj]; simp),
    bind_ok (a := h₀.length + 2) (h' := h₀ ++ [.diag fun _ => 1, .shapeJac 0, .alts col fun _ => 1])
      (by rw [copyObj, bind_ok (getObj_ok (h1 _)), allocObj]; simp),
    bind_ok (a := h₀.length + 3)
      (h' := h₀ ++ [.diag fun _ => 1, .shapeJac 0, .alts col fun _ => 1, .dense 0])
      (by rw [allocObj]; simp), pure_ok]

theorem asym_call (sref ref : Fin (n + 1)) (hr : h₀[rta]? = some (.alts col fun _ => 1))
    (s : Fin n → ℝ) (v : R → ℝ) (x y : R → ℝ) (J : Matrix (Fin (n + 1)) (Fin n) ℝ)
    (E : Matrix R (Fin n) ℝ) :
    ∃ x' J' y' E', callDerivs (asymCalls sref rta h₀.length (h₀.length + 1) (h₀.length + 2)
        (h₀.length + 3) (dhDAlpha ref (altsMatrix col fun _ => 1))) s v
          (h₀ ++ [.diag x, .shapeJac J, .alts col y, .dense E]) =
      .ok (asymDerivs sref ref (altsMatrix col fun _ => 1) s v,
        h₀ ++ [.diag x', .shapeJac J', .alts col y', .dense E']) := by
  have h1 : ∀ l, (h₀ ++ l)[rta]? = some (.alts col fun _ => 1) := fun l => by
    rw [heap_old _ (heap_lt hr), hr]
  have g0 : ∀ l, (h₀ ++ l)[h₀.length]? = l[0]? := fun l => heap_new h₀ l 0
  have s0 : ∀ l o, (h₀ ++ l).set h₀.length o = h₀ ++ l.set 0 o := fun l o => heap_set h₀ l 0 o
  set y' : R → ℝ := fun r =>
    asymDerivC ((altsMatrix col (fun _ => 1) *ᵥ convertEtaToC sref s) r) (v r) with hy
  set J' := derivCEta sref (convertEtaToC sref s) with hJ
  refine ⟨fun r => asymDerivV (n + 1) ((altsMatrix col (fun _ => 1) *ᵥ convertEtaToC sref s) r) (v r),
    J', y', altsMatrix col y' * J', ?_⟩
  have c1 : asymDerivShapeCall sref rta (h₀.length + 2) (h₀.length + 1) (h₀.length + 3) s v
        (h₀ ++ [.diag x, .shapeJac J, .alts col y, .dense E]) =
      .ok (h₀.length + 3, h₀ ++ [.diag x, .shapeJac J', .alts col y', .dense (altsMatrix col y' * J')]) := by
    rw [asymDerivShapeCall, bind_ok (readAlts_ok (h1 _)),
      bind_ok (setData_alts (c := col) (d := y) y' (by rw [heap_new]; rfl)), heap_set]
    rw [bind_ok (a := h₀.length + 1)
      (h' := h₀ ++ [.diag x, .shapeJac J', .alts col y', .dense E])
      (by rw [derivCEtaCall, bind_ok (fillShapeJac_ok (m := J) _ (by rw [heap_new]; rfl)), heap_set]; rfl)]
    rw [bind_ok (readAlts_ok (c := col) (d := y') (by rw [heap_new]; rfl)),
      bind_ok (readShapeJac_ok (m := J') (by rw [heap_new]; rfl)),
      bind_ok (fillDense_ok (m := E) _ (by rw [heap_new]; rfl)), heap_set]
    rfl
  have c2 : ∀ J E y, asymDerivVCall sref rta h₀.length s v
        (h₀ ++ [.diag x, .shapeJac J, .alts col y, .dense E]) =
      .ok (h₀.length, h₀ ++ [.diag fun r => asymDerivV (n + 1)
        ((altsMatrix col (fun _ => 1) *ᵥ convertEtaToC sref s) r) (v r), .shapeJac J, .alts col y,
          .dense E]) := by
    intro J E y
    rw [asymDerivVCall, bind_ok (readAlts_ok (h1 _)),
      bind_ok (setData_diag (d := x) _ (by rw [g0]; rfl)), s0]; rfl
  change (asymDerivShapeCall sref rta (h₀.length + 2) (h₀.length + 1) (h₀.length + 3) s v >>= fun c =>
    asymDerivVCall sref rta h₀.length s v >>=
    fun w => readDense c >>= fun mc => readDiag w >>= fun mw => pure _) _ = _
  rw [bind_ok c1, bind_ok (c2 _ _ _), bind_ok (readDense_ok (by rw [heap_new]; rfl)),
    bind_ok (readDiag_ok (by rw [g0]; rfl)), pure_ok, altsMatrix_data]
  rfl

end AsymCalls

/-! ## C83 -/

section Generic

variable [Fintype R] [DecidableEq R] [Nonempty R] [Fintype O] [Fintype K] [DecidableEq K] [DecidableEq A]
  [Fintype S] [DecidableEq S] [Fintype I] [DecidableEq I]

theorem bufBoth_no_memory (T : Transform R A S I ι) {set : HeapM R A B (BufCalls R A B S I)}
    {b : BufCalls R A B S I} {h₀ h₁ : List (Obj R A B)} (inv : List (Obj R A B) → Prop)
    (derivs : (S → ℝ) → (R → ℝ) → Derivs R S I) (d : FitData R O A K ι) (ridge : Option ℝ)
    (weights : Option (R → ℝ)) (constrained : Option (List (S ⊕ (I ⊕ K)))) (hset : set h₀ = .ok (b, h₁))
    (h1 : inv h₁) (hread : ∀ h, inv h → readAlts b.rowsToAlts h = .ok (d.rowsToAlts, h))
    (hcall : ∀ h s v, inv h → ∃ h', callDerivs b s v h = .ok (derivs s v, h') ∧ inv h')
    (hframe : ∀ h, inv h → ∀ a < h₀.length, h[a]? = h₀[a]?) :
    NoMemory (fun qs => set >>= fun b => (bufBoth T b d ridge weights constrained).answers qs) h₀
      (answerOf (estimatorBoth T derivs d ridge weights constrained)
        (fisherBothAt T derivs d ridge weights)) := by
  intro qs
  obtain ⟨h', e', hi⟩ := answers_of_invariant (bufBoth T b d ridge weights constrained) inv d.rowsToAlts
    derivs (answerOf (estimatorBoth T derivs d ridge weights constrained)
      (fisherBothAt T derivs d ridge weights)) hread hcall (fun x => rfl)
    (fun x => by simp only [answerOf, Estimator.negLLAndGrad, bufBoth, estimatorBoth])
    (fun x => by simp only [answerOf, Estimator.negHessian, bufBoth, estimatorBoth])
    (fun x => by simp only [answerOf, fisherBothAt, bufBoth]) qs h₁ h1
  exact ⟨h', (bind_ok hset).trans e', hframe h' hi⟩

omit [DecidableEq I] in
theorem bufShape_no_memory (T : Transform R A S I ι) {set : HeapM R A B (BufCalls R A B S I)}
    {b : BufCalls R A B S I} {h₀ h₁ : List (Obj R A B)} (inv : List (Obj R A B) → Prop)
    (derivs : (S → ℝ) → (R → ℝ) → Derivs R S I) (d : FitData R O A K ι) (ridge : Option ℝ)
    (weights : Option (R → ℝ)) (constrained : Option (List (S ⊕ K))) (hset : set h₀ = .ok (b, h₁))
    (h1 : inv h₁) (hread : ∀ h, inv h → readAlts b.rowsToAlts h = .ok (d.rowsToAlts, h))
    (hcall : ∀ h s v, inv h → ∃ h', callDerivs b s v h = .ok (derivs s v, h') ∧ inv h')
    (hframe : ∀ h, inv h → ∀ a < h₀.length, h[a]? = h₀[a]?) :
    NoMemory (fun qs => set >>= fun b => (bufShape T b d ridge weights constrained).answers qs) h₀
      (answerOf (estimatorShape T derivs d ridge weights constrained)
        (fisherShapeAt T derivs d ridge weights)) := by
  intro qs
  obtain ⟨h', e', hi⟩ := answers_of_invariant (bufShape T b d ridge weights constrained) inv d.rowsToAlts
    derivs (answerOf (estimatorShape T derivs d ridge weights constrained)
      (fisherShapeAt T derivs d ridge weights)) hread hcall (fun x => rfl)
    (fun x => by simp only [answerOf, Estimator.negLLAndGrad, bufShape, estimatorShape])
    (fun x => by simp only [answerOf, Estimator.negHessian, bufShape, estimatorShape])
    (fun x => by simp only [answerOf, fisherShapeAt, bufShape]) qs h₁ h1
  exact ⟨h', (bind_ok hset).trans e', hframe h' hi⟩

omit [Fintype S] [DecidableEq S] in
theorem bufIcpt_no_memory (T : Transform R A Empty I ι) {set : HeapM R A B (BufCalls R A B Empty I)}
    {b : BufCalls R A B Empty I} {h₀ h₁ : List (Obj R A B)} (inv : List (Obj R A B) → Prop)
    (derivs : (R → ℝ) → Derivs R Empty I) (d : FitData R O A K ι) (ridge : Option ℝ)
    (weights : Option (R → ℝ)) (constrained : Option (List (I ⊕ K))) (hset : set h₀ = .ok (b, h₁))
    (h1 : inv h₁) (hread : ∀ h, inv h → readAlts b.rowsToAlts h = .ok (d.rowsToAlts, h))
    (hcall : ∀ h s v, inv h → ∃ h', callDerivs b s v h = .ok (derivs v, h') ∧ inv h')
    (hframe : ∀ h, inv h → ∀ a < h₀.length, h[a]? = h₀[a]?) :
    NoMemory (fun qs => set >>= fun b => (bufIcpt T b d ridge weights constrained).answers qs) h₀
      (answerOf (estimatorIcpt T derivs d ridge weights constrained)
        (fisherIcptAt T derivs d ridge weights)) := by
  intro qs
  obtain ⟨h', e', hi⟩ := answers_of_invariant (bufIcpt T b d ridge weights constrained) inv d.rowsToAlts
    (fun _ => derivs) (answerOf (estimatorIcpt T derivs d ridge weights constrained)
      (fisherIcptAt T derivs d ridge weights)) hread hcall (fun x => rfl)
    (fun x => by simp only [answerOf, Estimator.negLLAndGrad, bufIcpt, estimatorIcpt])
    (fun x => by simp only [answerOf, Estimator.negHessian, bufIcpt, estimatorIcpt])
    (fun x => by simp only [answerOf, fisherIcptAt, bufIcpt]) qs h₁ h1
  exact ⟨h', (bind_ok hset).trans e', hframe h' hi⟩

omit [Fintype S] [DecidableEq S] [DecidableEq I] in
theorem bufNone_no_memory (T : Transform R A Empty I ι) {set : HeapM R A B (BufCalls R A B Empty I)}
    {b : BufCalls R A B Empty I} {h₀ h₁ : List (Obj R A B)} (inv : List (Obj R A B) → Prop)
    (derivs : (R → ℝ) → Derivs R Empty I) (d : FitData R O A K ι) (ridge : Option ℝ)
    (weights : Option (R → ℝ)) (constrained : Option (List (K))) (hset : set h₀ = .ok (b, h₁))
    (h1 : inv h₁) (hread : ∀ h, inv h → readAlts b.rowsToAlts h = .ok (d.rowsToAlts, h))
    (hcall : ∀ h s v, inv h → ∃ h', callDerivs b s v h = .ok (derivs v, h') ∧ inv h')
    (hframe : ∀ h, inv h → ∀ a < h₀.length, h[a]? = h₀[a]?) :
    NoMemory (fun qs => set >>= fun b => (bufNone T b d ridge weights constrained).answers qs) h₀
      (answerOf (estimatorNone T derivs d ridge weights constrained)
        (fisherNoneAt T derivs d ridge weights)) := by
  intro qs
  obtain ⟨h', e', hi⟩ := answers_of_invariant (bufNone T b d ridge weights constrained) inv d.rowsToAlts
    (fun _ => derivs) (answerOf (estimatorNone T derivs d ridge weights constrained)
      (fisherNoneAt T derivs d ridge weights)) hread hcall (fun x => rfl)
    (fun x => by simp only [answerOf, Estimator.negLLAndGrad, bufNone, estimatorNone])
    (fun x => by simp only [answerOf, Estimator.negHessian, bufNone, estimatorNone])
    (fun x => by simp only [answerOf, fisherNoneAt, bufNone]) qs h₁ h1
  exact ⟨h', (bind_ok hset).trans e', hframe h' hi⟩

end Generic

section NoMemory

variable [Fintype R] [DecidableEq R] [Nonempty R] [Fintype O] [Fintype K] [DecidableEq K]
  {col : R → Fin (n + 1)} {h₀ : List (Obj R (Fin (n + 1)) B)}

/-- Scobit with outside intercepts: whatever has been evaluated before, the
log-likelihood, the objective, the Hessian and the Fisher matrix are those of the estimator's functions of
the parameters; no object that was there before is changed. -/
theorem scobit_no_memory (ref : Fin (n + 1)) (rta : ℕ)
    (hr : h₀[rta]? = some (.alts col fun _ => 1)) (d : FitData R O (Fin (n + 1)) K ι)
    (hd : ∀ r j, d.rowsToAlts r j = if col r = j then 1 else 0) (ridge : Option ℝ) (weights : Option (R → ℝ))
    (constrained : Option (List (Fin (n + 1) ⊕ (Fin n ⊕ K)))) :
    NoMemory (fun qs => scobitSetDerivatives ref rta >>= fun b =>
        (bufBoth (scobitTransform (some ref)) b d ridge weights constrained).answers qs) h₀
      (answerOf (scobitEstimator ref d ridge weights constrained)
        (fisherBothAt (scobitTransform (some ref)) (scobitDerivs ref d.rowsToAlts) d ridge weights)) :=
  bufBoth_no_memory (scobitTransform (some ref)) (fun h => ∃ x y, h = h₀ ++ [.diag x, .alts col y]) (scobitDerivs ref d.rowsToAlts) d ridge weights constrained
    (scobit_set ref hr) (⟨_, _, rfl⟩)
    (by rintro h ⟨x, y, rfl⟩; rw [indicator_eq hd]; exact readAlts_ok ((heap_old _ (heap_lt hr)).trans hr))
    (by
      rintro h s v ⟨x, y, rfl⟩
      obtain ⟨x', y', hc⟩ := scobit_call ref hr s v x y
      rw [indicator_eq hd]
      exact ⟨_, hc, x', y', rfl⟩)
    (by rintro h ⟨x, y, rfl⟩ a ha; exact heap_old _ ha)

/-- Scobit without outside intercepts: whatever has been evaluated before, the
log-likelihood, the objective, the Hessian and the Fisher matrix are those of the estimator's functions of
the parameters; no object that was there before is changed. -/
theorem scobit_plain_no_memory (ref : Fin (n + 1)) (rta : ℕ)
    (hr : h₀[rta]? = some (.alts col fun _ => 1)) (d : FitData R O (Fin (n + 1)) K ι)
    (hd : ∀ r j, d.rowsToAlts r j = if col r = j then 1 else 0) (ridge : Option ℝ) (weights : Option (R → ℝ))
    (constrained : Option (List (Fin (n + 1) ⊕ K))) :
    NoMemory (fun qs => scobitSetDerivatives ref rta >>= fun b =>
        (bufShape (scobitTransform (some ref)) b d ridge weights constrained).answers qs) h₀
      (answerOf (scobitEstimatorPlain ref d ridge weights constrained)
        (fisherShapeAt (scobitTransform (some ref)) (scobitDerivs ref d.rowsToAlts) d ridge weights)) :=
  bufShape_no_memory (scobitTransform (some ref)) (fun h => ∃ x y, h = h₀ ++ [.diag x, .alts col y]) (scobitDerivs ref d.rowsToAlts) d ridge weights constrained
    (scobit_set ref hr) (⟨_, _, rfl⟩)
    (by rintro h ⟨x, y, rfl⟩; rw [indicator_eq hd]; exact readAlts_ok ((heap_old _ (heap_lt hr)).trans hr))
    (by
      rintro h s v ⟨x, y, rfl⟩
      obtain ⟨x', y', hc⟩ := scobit_call ref hr s v x y
      rw [indicator_eq hd]
      exact ⟨_, hc, x', y', rfl⟩)
    (by rintro h ⟨x, y, rfl⟩ a ha; exact heap_old _ ha)

/-- Uneven logit with outside intercepts: whatever has been evaluated before, the
log-likelihood, the objective, the Hessian and the Fisher matrix are those of the estimator's functions of
the parameters; no object that was there before is changed. -/
theorem uneven_no_memory (ref : Fin (n + 1)) (rta : ℕ)
    (hr : h₀[rta]? = some (.alts col fun _ => 1)) (d : FitData R O (Fin (n + 1)) K ι)
    (hd : ∀ r j, d.rowsToAlts r j = if col r = j then 1 else 0) (ridge : Option ℝ) (weights : Option (R → ℝ))
    (constrained : Option (List (Fin (n + 1) ⊕ (Fin n ⊕ K)))) :
    NoMemory (fun qs => unevenSetDerivatives ref rta >>= fun b =>
        (bufBoth (unevenTransform (some ref)) b d ridge weights constrained).answers qs) h₀
      (answerOf (unevenEstimator ref d ridge weights constrained)
        (fisherBothAt (unevenTransform (some ref)) (unevenDerivs ref d.rowsToAlts) d ridge weights)) :=
  bufBoth_no_memory (unevenTransform (some ref)) (fun h => ∃ x y, h = h₀ ++ [.diag x, .alts col y]) (unevenDerivs ref d.rowsToAlts) d ridge weights constrained
    (uneven_set ref hr) (⟨_, _, rfl⟩)
    (by rintro h ⟨x, y, rfl⟩; rw [indicator_eq hd]; exact readAlts_ok ((heap_old _ (heap_lt hr)).trans hr))
    (by
      rintro h s v ⟨x, y, rfl⟩
      obtain ⟨x', y', hc⟩ := uneven_call ref hr s v x y
      rw [indicator_eq hd]
      exact ⟨_, hc, x', y', rfl⟩)
    (by rintro h ⟨x, y, rfl⟩ a ha; exact heap_old _ ha)

/-- Uneven logit without outside intercepts: whatever has been evaluated before, the
log-likelihood, the objective, the Hessian and the Fisher matrix are those of the estimator's functions of
the parameters; no object that was there before is changed. -/
theorem uneven_plain_no_memory (ref : Fin (n + 1)) (rta : ℕ)
    (hr : h₀[rta]? = some (.alts col fun _ => 1)) (d : FitData R O (Fin (n + 1)) K ι)
    (hd : ∀ r j, d.rowsToAlts r j = if col r = j then 1 else 0) (ridge : Option ℝ) (weights : Option (R → ℝ))
    (constrained : Option (List (Fin (n + 1) ⊕ K))) :
    NoMemory (fun qs => unevenSetDerivatives ref rta >>= fun b =>
        (bufShape (unevenTransform (some ref)) b d ridge weights constrained).answers qs) h₀
      (answerOf (unevenEstimatorPlain ref d ridge weights constrained)
        (fisherShapeAt (unevenTransform (some ref)) (unevenDerivs ref d.rowsToAlts) d ridge weights)) :=
  bufShape_no_memory (unevenTransform (some ref)) (fun h => ∃ x y, h = h₀ ++ [.diag x, .alts col y]) (unevenDerivs ref d.rowsToAlts) d ridge weights constrained
    (uneven_set ref hr) (⟨_, _, rfl⟩)
    (by rintro h ⟨x, y, rfl⟩; rw [indicator_eq hd]; exact readAlts_ok ((heap_old _ (heap_lt hr)).trans hr))
    (by
      rintro h s v ⟨x, y, rfl⟩
      obtain ⟨x', y', hc⟩ := uneven_call ref hr s v x y
      rw [indicator_eq hd]
      exact ⟨_, hc, x', y', rfl⟩)
    (by rintro h ⟨x, y, rfl⟩ a ha; exact heap_old _ ha)

/-- Clog-log with outside intercepts: whatever has been evaluated before, the
log-likelihood, the objective, the Hessian and the Fisher matrix are those of the estimator's functions of
the parameters; no object that was there before is changed. -/
theorem clog_no_memory (ref : Fin (n + 1)) (rta : ℕ)
    (hr : h₀[rta]? = some (.alts col fun _ => 1)) (d : FitData R O (Fin (n + 1)) K ι)
    (hd : ∀ r j, d.rowsToAlts r j = if col r = j then 1 else 0) (ridge : Option ℝ) (weights : Option (R → ℝ))
    (constrained : Option (List (Fin n ⊕ K))) :
    NoMemory (fun qs => clogSetDerivatives ref rta >>= fun b =>
        (bufIcpt (clogTransform (some ref)) b d ridge weights constrained).answers qs) h₀
      (answerOf (clogEstimator ref d ridge weights constrained)
        (fisherIcptAt (clogTransform (some ref)) (clogDerivs ref d.rowsToAlts) d ridge weights)) :=
  bufIcpt_no_memory (clogTransform (some ref)) (fun h => ∃ x, h = h₀ ++ [.diag x]) (clogDerivs ref d.rowsToAlts) d ridge weights constrained
    (clog_set ref hr) (⟨_, rfl⟩)
    (by rintro h ⟨x, rfl⟩; rw [indicator_eq hd]; exact readAlts_ok ((heap_old _ (heap_lt hr)).trans hr))
    (by
      rintro h s v ⟨x, rfl⟩
      rw [indicator_eq hd]
      exact ⟨_, clog_call ref s v x, _, rfl⟩)
    (by rintro h ⟨x, rfl⟩ a ha; exact heap_old _ ha)

/-- Clog-log without outside intercepts: whatever has been evaluated before, the
log-likelihood, the objective, the Hessian and the Fisher matrix are those of the estimator's functions of
the parameters; no object that was there before is changed. -/
theorem clog_plain_no_memory (ref : Fin (n + 1)) (rta : ℕ)
    (hr : h₀[rta]? = some (.alts col fun _ => 1)) (d : FitData R O (Fin (n + 1)) K ι)
    (hd : ∀ r j, d.rowsToAlts r j = if col r = j then 1 else 0) (ridge : Option ℝ) (weights : Option (R → ℝ))
    (constrained : Option (List (K))) :
    NoMemory (fun qs => clogSetDerivatives ref rta >>= fun b =>
        (bufNone (clogTransform (some ref)) b d ridge weights constrained).answers qs) h₀
      (answerOf (clogEstimatorPlain ref d ridge weights constrained)
        (fisherNoneAt (clogTransform (some ref)) (clogDerivs ref d.rowsToAlts) d ridge weights)) :=
  bufNone_no_memory (clogTransform (some ref)) (fun h => ∃ x, h = h₀ ++ [.diag x]) (clogDerivs ref d.rowsToAlts) d ridge weights constrained
    (clog_set ref hr) (⟨_, rfl⟩)
    (by rintro h ⟨x, rfl⟩; rw [indicator_eq hd]; exact readAlts_ok ((heap_old _ (heap_lt hr)).trans hr))
    (by
      rintro h s v ⟨x, rfl⟩
      rw [indicator_eq hd]
      exact ⟨_, clog_call ref s v x, _, rfl⟩)
    (by rintro h ⟨x, rfl⟩ a ha; exact heap_old _ ha)

/-- Multinomial logit: as above. -/
theorem mnl_no_memory (rta : ℕ) (hr : h₀[rta]? = some (.alts col fun _ => 1))
    (d : FitData R O (Fin (n + 1)) K ι) (hd : ∀ r j, d.rowsToAlts r j = if col r = j then 1 else 0)
    (ridge : Option ℝ) (weights : Option (R → ℝ)) (constrained : Option (List K)) :
    NoMemory (fun qs => mnlSetDerivatives rta >>= fun b =>
        (bufNone mnlTransform b d ridge weights constrained).answers qs) h₀
      (answerOf (mnlEstimator d ridge weights constrained)
        (fisherNoneAt mnlTransform (fun _ => mnlDerivs) d ridge weights)) :=
  bufNone_no_memory mnlTransform (b := mnlCalls rta h₀.length) (h₁ := h₀ ++ [.diag fun _ => 1])
    (fun h => h = h₀ ++ [.diag fun _ => 1]) (fun _ => mnlDerivs) d ridge weights constrained rfl rfl
    (by rintro h rfl; rw [indicator_eq hd]; exact readAlts_ok ((heap_old _ (heap_lt hr)).trans hr))
    (by
      rintro h s v rfl
      refine ⟨_, ?_, rfl⟩
      have g0 : ∀ l, (h₀ ++ l)[h₀.length]? = l[0]? := fun l => heap_new h₀ l 0
      change ((pure 0 : HeapM R (Fin (n + 1)) B ℕ) >>= fun c =>
        (pure h₀.length : HeapM R (Fin (n + 1)) B ℕ) >>= fun w =>
        (pure (fun _ e => e.elim : Matrix R Empty ℝ) : HeapM R (Fin (n + 1)) B _) >>= fun mc =>
        readDiag w >>= fun mw => pure _) _ = _
      rw [bind_ok (pure_ok _ _), bind_ok (pure_ok _ _), bind_ok (pure_ok _ _),
        bind_ok (readDiag_ok (d := fun _ => 1) (by rw [g0]; rfl)), pure_ok, Matrix.diagonal_one]
      rfl)
    (by rintro h rfl a ha; exact heap_old _ ha)

end NoMemory

section NoMemoryAsym

variable [Fintype R] [DecidableEq R] [Nonempty R] [Fintype O] [Fintype K] [DecidableEq K]
  {col : R → Fin (n + 1)} {h₀ : List (Obj R (Fin (n + 1)) (Fin n))}

/-- Asymmetric logit with outside intercepts: whatever has been evaluated before, the
log-likelihood, the objective, the Hessian and the Fisher matrix are those of the estimator's functions of
the parameters; no object that was there before is changed. -/
theorem asym_no_memory (sref ref : Fin (n + 1)) (rta : ℕ)
    (hr : h₀[rta]? = some (.alts col fun _ => 1)) (d : FitData R O (Fin (n + 1)) K ι)
    (hd : ∀ r j, d.rowsToAlts r j = if col r = j then 1 else 0) (ridge : Option ℝ) (weights : Option (R → ℝ))
    (constrained : Option (List (Fin n ⊕ (Fin n ⊕ K)))) :
    NoMemory (fun qs => asymSetDerivatives sref ref rta >>= fun b =>
        (bufBoth (asymTransform sref (some ref)) b d ridge weights constrained).answers qs) h₀
      (answerOf (asymEstimator sref ref d ridge weights constrained)
        (fisherBothAt (asymTransform sref (some ref)) (asymDerivs sref ref d.rowsToAlts) d ridge weights)) :=
  bufBoth_no_memory (asymTransform sref (some ref)) (fun h => ∃ x J y E, h = h₀ ++ [.diag x, .shapeJac J, .alts col y, .dense E]) (asymDerivs sref ref d.rowsToAlts) d ridge weights constrained
    (asym_set sref ref hr) (⟨_, _, _, _, rfl⟩)
    (by rintro h ⟨x, J, y, E, rfl⟩; rw [indicator_eq hd]; exact readAlts_ok ((heap_old _ (heap_lt hr)).trans hr))
    (by
      rintro h s v ⟨x, J, y, E, rfl⟩
      obtain ⟨x', J', y', E', hc⟩ := asym_call sref ref hr s v x y J E
      rw [indicator_eq hd]
      exact ⟨_, hc, x', J', y', E', rfl⟩)
    (by rintro h ⟨x, J, y, E, rfl⟩ a ha; exact heap_old _ ha)

/-- Asymmetric logit without outside intercepts: whatever has been evaluated before, the
log-likelihood, the objective, the Hessian and the Fisher matrix are those of the estimator's functions of
the parameters; no object that was there before is changed. -/
theorem asym_plain_no_memory (sref ref : Fin (n + 1)) (rta : ℕ)
    (hr : h₀[rta]? = some (.alts col fun _ => 1)) (d : FitData R O (Fin (n + 1)) K ι)
    (hd : ∀ r j, d.rowsToAlts r j = if col r = j then 1 else 0) (ridge : Option ℝ) (weights : Option (R → ℝ))
    (constrained : Option (List (Fin n ⊕ K))) :
    NoMemory (fun qs => asymSetDerivatives sref ref rta >>= fun b =>
        (bufShape (asymTransform sref (some ref)) b d ridge weights constrained).answers qs) h₀
      (answerOf (asymEstimatorPlain sref ref d ridge weights constrained)
        (fisherShapeAt (asymTransform sref (some ref)) (asymDerivs sref ref d.rowsToAlts) d ridge weights)) :=
  bufShape_no_memory (asymTransform sref (some ref)) (fun h => ∃ x J y E, h = h₀ ++ [.diag x, .shapeJac J, .alts col y, .dense E]) (asymDerivs sref ref d.rowsToAlts) d ridge weights constrained
    (asym_set sref ref hr) (⟨_, _, _, _, rfl⟩)
    (by rintro h ⟨x, J, y, E, rfl⟩; rw [indicator_eq hd]; exact readAlts_ok ((heap_old _ (heap_lt hr)).trans hr))
    (by
      rintro h s v ⟨x, J, y, E, rfl⟩
      obtain ⟨x', J', y', E', hc⟩ := asym_call sref ref hr s v x y J E
      rw [indicator_eq hd]
      exact ⟨_, hc, x', J', y', E', rfl⟩)
    (by rintro h ⟨x, J, y, E, rfl⟩ a ha; exact heap_old _ ha)

end NoMemoryAsym

/-! ## A concrete case -/

/-- Two rows, one per alternative, one observation that chose the second. -/
def exBufFit : FitData (Fin 2) Unit (Fin (1 + 1)) (Fin 1) ℕ where
  design := fun r _ => r
  altIDs := fun r => r
  rowsToObs := fun _ _ => 1
  rowsToAlts := altsMatrix id fun _ => 1
  choice := fun r => r

/-- The heap and the data of the theorems: an unrelated object and the mapping; a history of four requests,
at two different parameters. -/
example (x y : Fin (1 + 1) ⊕ (Fin 1 ⊕ Fin 1) → ℝ) :
    ∃ h', (scobitSetDerivatives (B := Fin 1) (0 : Fin (1 + 1)) 1 >>= fun b =>
        (bufBoth (scobitTransform (some 0)) b exBufFit (some 1) none none).answers
          [.objective x, .fisher y, .objective x, .logLik x])
        [.diag fun _ => 5, .alts id fun _ => 1] =
      .ok ([Request.objective x, .fisher y, .objective x, .logLik x].map
        (answerOf (scobitEstimator 0 exBufFit (some 1) none none)
          (fisherBothAt (scobitTransform (some 0)) (scobitDerivs 0 exBufFit.rowsToAlts) exBufFit (some 1)
            none)), h') ∧
      ∀ a < 2, h'[a]? = [Obj.diag (fun _ : Fin 2 => (5 : ℝ)), .alts (id : Fin 2 → Fin (1 + 1)) fun _ => 1][a]? :=
  scobit_no_memory (B := Fin 1) (h₀ := [.diag fun _ => 5, .alts id fun _ => 1]) (col := id) 0 1 rfl exBufFit
    (fun _ _ => rfl) (some 1) none none _

end

end Pylogit
