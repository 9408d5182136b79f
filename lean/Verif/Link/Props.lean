import Verif.Link.Bridge
import Verif.Solver.CGExact
import Verif.Solver.KrylovConvProps
import Verif.Solver.MinresExact
import Verif.Solver.LSQRConv
import Verif.Solver.LSMRConv
import Verif.Solver.CraigConv
import Verif.Solver.CraigmrExact

/-!
# C64: the solvers on operators built with the operator layer

The theorems about the solvers take the operator as a function and require it to be linear (and the second function to be its
adjoint).  Here the operator is any variable of any client program of the operator layer, and the requirement is a theorem.
-/

namespace Verif.Link
open Verif.Linop Verif.Solver
open MinresMath (krylov)

open Classical

variable {env : List Nat} {h : Heap ℂ} {mats : List (Mat ℂ)}

/-- **C64.** Every operator with an integer or real dtype is some real matrix. -/
theorem C64_real_matrix (R : Reach env h mats) {i r : ℕ} {A : Mat ℂ} (hr : env[i]? = some r) (hA : mats[i]? = some A)
    (hk : A.kind ≠ .complex) : ∃ M : Matrix (Fin A.rows) (Fin A.cols) ℝ, IsReal A M := by
  obtain ⟨D, I, L, _, _⟩ := R.inv
  obtain ⟨B, hB, hE⟩ := L.2 i r A hr hA
  obtain ⟨o, ho, hok⟩ := I.get hB
  refine ⟨fun i j => (A.e i j).re, rfl, rfl, hk, fun i j => ?_⟩
  have hi : (i : ℕ) < B.rows := by rw [hE.rows]; exact i.2
  have hj : (j : ℕ) < B.cols := by rw [hE.cols]; exact j.2
  have h1 := hok.typed i hi j hj
  rw [hE.entry i hi j hj, hE.kind] at h1
  have h2 : A.e i j ∈ (DTypes.sub .real : Subring ℂ) := by
    cases hd : A.kind with
    | complex => exact absurd hd hk
    | real => rw [hd] at h1; exact h1
    | int => rw [hd] at h1; exact DTypes.int_le_real h1
  obtain ⟨x, hx⟩ := h2
  rw [← hx]
  simp

/-- **C64.** Every meaningful program whose matrix computation is defined runs, so the theorems below apply to all its
variables. -/
theorem C64_programs (cs : List (Cmd ℂ)) (hw : WFAll [] cs) (hc : ∀ c ∈ cs, c.Complete) (mats : List (Mat ℂ))
    (hs : specAll cs [] = .ok mats) :
    ∃ env h, execAll cs ([], []) = .ok (env, h) ∧ env.length = mats.length ∧ ReachTotal env h mats := by
  have hT := C01_operator_algebra_total cs hw hc
  rw [hs] at hT
  cases he : execAll cs ([], []) with
  | error e => rw [he] at hT; exact hT.elim
  | ok p =>
    rw [he] at hT
    exact ⟨p.1, p.2, rfl, hT.1, cs, hw, hc, he, hs⟩

/-- **C64.** For complete user operators, what a solver computes with `op * x` and `op.T * y` is `M x` and `M' y`; `op.T`
exists. -/
theorem C64_operator (R : ReachTotal env h mats) {i r : ℕ} {A : Mat ℂ} (hr : env[i]? = some r) (hA : mats[i]? = some A) {m n : ℕ}
    {M : Matrix (Fin m) (Fin n) ℝ} (hM : IsReal A M) :
    ∃ t, getT h r = some t ∧ ∀ fuel, h.length ≤ fuel →
      (∀ x : RVec n, apply h fuel r n m (.fin x) = .fin (WithLp.toLp 2 (M.mulVec x.ofLp))) ∧
      ∀ y : RVec m, apply h fuel t m n (.fin y) = .fin (WithLp.toLp 2 (M.transpose.mulVec y.ofLp)) := by
  obtain ⟨⟨t, ht, -, hT⟩, -⟩ := C02_transpose_adjoint_total R hr hA
  obtain ⟨cs, h1, hc, h2, h3⟩ := R
  have hTot := C01_operator_algebra_total cs h1 hc
  rw [h2, h3] at hTot
  have h0 := (hTot.2 i r A hr hA).2
  refine ⟨t, ht, fun fuel hf => ⟨fun x => ?_, fun y => ?_⟩⟩
  · rw [apply_eq hM h0 hf]; rfl
  · rw [apply_eq hM.T hT hf]; rfl

/-- the two functions handed to the solvers -/
theorem api_ops (R : ReachTotal env h mats) {i r : ℕ} {A : Mat ℂ} (hr : env[i]? = some r) (hA : mats[i]? = some A) {m n : ℕ}
    {M : Matrix (Fin m) (Fin n) ℝ} (hM : IsReal A M) {fuel : ℕ} (hf : h.length ≤ fuel) :
    apply h fuel r n m = Vec.op (lin M) ∧ ∀ t, getT h r = some t → apply h fuel t m n = Vec.op (lin M.transpose) := by
  obtain ⟨t, ht, h1⟩ := C64_operator R hr hA hM
  obtain ⟨h2, h3⟩ := h1 fuel hf
  refine ⟨?_, fun t' ht' => ?_⟩
  · funext v; cases v with
    | nan => rfl
    | fin v => exact h2 v
  · rw [ht] at ht'; cases ht'
    funext v; cases v with
    | nan => rfl
    | fin v => exact h3 v

/-- **C64, counter.** However many products a solver makes, the counter `nMatvec` of the operator grows by exactly that many. -/
theorem C64_counter (R : Reach env h mats) {i r : ℕ} (hr : env[i]? = some r) {n fuel : ℕ} (hf : fuel ≠ 0)
    (products : List (Vec (RVec n))) (c : Cnt) :
    (countsAfter h fuel r products c)[r]? = c[r]?.map (· + products.length) := by
  obtain ⟨f, rfl⟩ := Nat.exists_eq_succ_of_ne_zero hf
  induction products generalizing c with
  | nil => simp [countsAfter]
  | cons v vs ih =>
    change (countsAfter h (f + 1) r vs (run h (f + 1) r (handed v) c).2)[r]? = _
    rw [ih, (C06_own_counter R hr f (handed v) c).1]
    cases c[r]? with
    | none => rfl
    | some k => simp; omega

theorem fuel_pos {R : Reach env h mats} {i r : ℕ} (hr : env[i]? = some r) {fuel : ℕ} (hf : h.length ≤ fuel) : fuel ≠ 0 := by
  obtain ⟨A, hA, hlt⟩ := R.get hr
  omega

theorem spd_lin {n : ℕ} {M : Matrix (Fin n) (Fin n) ℝ} (hM : M.PosDef) : SPD (lin M) := by
  have hs : M.transpose = M := by simpa using hM.isHermitian.eq
  refine ⟨fun u v => by rw [lin_adj, hs], fun u hu => ?_⟩
  have := hM.dotProduct_mulVec_pos (x := u.ofLp) (fun h => hu (by ext i; simpa using congrFun h i))
  simp only [lin_apply, PiLp.inner_apply, RCLike.inner_apply, conj_trivial]
  simpa [dotProduct, mul_comm] using this

/-! ### Square systems -/

/-- **C64, CG.** CG on a positive definite operator, in exact arithmetic and with the default budget or a larger one: it converges
within `n` iterations to an `x` that passes the stopping test, which is the solution if the tolerances are zero, and the counter
of the operator grows by the number of products CG reports. -/
theorem C64_cg (R : ReachTotal env h mats) {i r : ℕ} {A : Mat ℂ} (hr : env[i]? = some r) (hA : mats[i]? = some A) {n : ℕ}
    {M : Matrix (Fin n) (Fin n) ℝ} (hM : IsReal A M) (hP : M.PosDef) {fuel : ℕ} (hf : h.length ≤ fuel) (b : RVec n)
    (guess : Option (RVec n)) (abstol reltol : ℝ) (hat : 0 ≤ abstol) (self : CGObj Fl (Vec (RVec n))) (kw : CGKw (Vec (RVec n)))
    (hk : kw.Runs) (hg : kw.guess = guess.map Vec.fin) (hm : kw.matvecMax = none) (c : Cnt) :
    let out := cgSolve (apply h fuel r n n) { abstol := .fin abstol, reltol := .fin reltol } n self (.fin b) kw
    out.1.converged = true ∧ out.1.nMatvec ≤ n + (if guess.isSome then 1 else 0) ∧
    (∃ x, out.1.x = some (.fin x) ∧ ‖b - lin M x‖ ≤ max abstol (reltol * ‖b - lin M (guess.getD 0)‖) ∧
      (abstol = 0 → reltol = 0 → M.mulVec x.ofLp = b.ofLp)) ∧
    (countsAfter h fuel r out.2 c)[r]? = c[r]?.map (· + out.1.nMatvec) := by
  have hop := (api_ops R hr hA hM hf).1
  have hfr : Module.finrank ℝ (RVec n) = n := finrank_euclideanSpace_fin
  intro out
  have hb := (C26_budget (apply h fuel r n n) { abstol := .fin abstol, reltol := .fin reltol } n self (.fin b) kw hk).1
  have hcnt : (countsAfter h fuel r out.2 c)[r]? = c[r]?.map (· + out.1.nMatvec) := by
    rw [C64_counter R.reach hr (fuel_pos (R := R.reach) hr hf), hb]
  have hT := C28_terminates_partial
    { A := lin M, b := b, guess := guess, abstol := abstol, reltol := reltol }
    ⟨(spd_lin hP).1, (spd_lin hP).2⟩ self kw hk hg hat
    (by rw [hm]; simp)
  simp only [hfr, hg, CGProblem.opts, Option.isSome_map] at hT
  rw [← hop] at hT
  obtain ⟨h1, h2, ⟨x, h3, h4, h5⟩, -⟩ := hT
  refine ⟨h1, h2, ⟨x, h3, h4, fun e1 e2 => ?_⟩, hcnt⟩
  have := h5 e1 e2
  exact congrArg WithLp.ofLp this

/-- **C64, CGS.** CGS on a positive definite operator: a result within the threshold after at most `2n` products. -/
theorem C64_cgs (R : ReachTotal env h mats) {i r : ℕ} {A : Mat ℂ} (hr : env[i]? = some r) (hA : mats[i]? = some A) {n : ℕ}
    {M : Matrix (Fin n) (Fin n) ℝ} (hM : IsReal A M) (hP : M.PosDef) {fuel : ℕ} (hf : h.length ≤ fuel) (b : RVec n)
    (guess : Option (RVec n)) (abstol reltol : ℝ) (hat : 0 ≤ abstol) (kw : KrylovKw (Vec (RVec n)))
    (hg : kw.guess = guess.map Vec.fin) (hm : kw.matvecMax = none) :
    let out := cgsSolve (apply h fuel r n n) { abstol := .fin abstol, reltol := .fin reltol } n (.fin b) kw
    out.1.converged = true ∧ out.1.nMatvec ≤ 2 * n ∧
    ∃ x, out.1.x = .fin x ∧ ‖b - lin M x‖ ≤ max abstol (reltol * ‖b - lin M (guess.getD 0)‖) := by
  have hop := (api_ops R hr hA hM hf).1
  have hfr : Module.finrank ℝ (RVec n) = n := finrank_euclideanSpace_fin
  have hT := C55_cgs_spd { A := lin M, b := b, guess := guess, abstol := abstol, reltol := reltol, precon := none } rfl
    (spd_lin hP) n hfr.le kw hg (le_trans hat (le_max_left _ _)) (by rw [hm]; simp)
  simp only [LinProblem.opts] at hT
  rw [← hop] at hT
  exact hT

/-- **C64, Bi-CGSTAB.** The same for Bi-CGSTAB. -/
theorem C64_bicgstab (R : ReachTotal env h mats) {i r : ℕ} {A : Mat ℂ} (hr : env[i]? = some r) (hA : mats[i]? = some A) {n : ℕ}
    (hn : 0 < n) {M : Matrix (Fin n) (Fin n) ℝ} (hM : IsReal A M) (hP : M.PosDef) {fuel : ℕ} (hf : h.length ≤ fuel) (b : RVec n)
    (guess : Option (RVec n)) (abstol reltol : ℝ) (hat : 0 ≤ abstol) (kw : KrylovKw (Vec (RVec n)))
    (hg : kw.guess = guess.map Vec.fin) (hm : kw.matvecMax = none) :
    let out := biSolve (apply h fuel r n n) { abstol := .fin abstol, reltol := .fin reltol } n (.fin b) kw
    out.1.converged = true ∧ out.1.nMatvec ≤ 2 * n := by
  have hop := (api_ops R hr hA hM hf).1
  have hfr : Module.finrank ℝ (RVec n) = n := finrank_euclideanSpace_fin
  have hT := C55_bicgstab_spd { A := lin M, b := b, guess := guess, abstol := abstol, reltol := reltol, precon := none } rfl
    (spd_lin hP) n hfr.le hn kw hg (le_trans hat (le_max_left _ _)) (by rw [hm]; simp)
  simp only [LinProblem.opts] at hT
  rw [← hop] at hT
  exact ⟨hT.1, hT.2.1⟩

/-- **C64, TFQMR.** The same for TFQMR, when the threshold is positive and the start does not pass the test. -/
theorem C64_tfqmr (R : ReachTotal env h mats) {i r : ℕ} {A : Mat ℂ} (hr : env[i]? = some r) (hA : mats[i]? = some A) {n : ℕ}
    {M : Matrix (Fin n) (Fin n) ℝ} (hM : IsReal A M) (hP : M.PosDef) {fuel : ℕ} (hf : h.length ≤ fuel) (b : RVec n)
    (guess : Option (RVec n)) (abstol reltol : ℝ) (ht : 0 < max abstol (reltol * ‖b - lin M (guess.getD 0)‖))
    (hs : max abstol (reltol * ‖b - lin M (guess.getD 0)‖) < ‖b - lin M (guess.getD 0)‖) (kw : KrylovKw (Vec (RVec n)))
    (hg : kw.guess = guess.map Vec.fin) (hm : kw.matvecMax = none) :
    ∃ res products x,
      tfSolve (apply h fuel r n n) { abstol := .fin abstol, reltol := .fin reltol } n (.fin b) kw = .ok (res, products) ∧
      res.converged = true ∧ res.nMatvec ≤ 2 * n ∧ res.x = .fin x ∧
      ‖b - lin M x‖ < max abstol (reltol * ‖b - lin M (guess.getD 0)‖) := by
  have hop := (api_ops R hr hA hM hf).1
  have hfr : Module.finrank ℝ (RVec n) = n := finrank_euclideanSpace_fin
  obtain ⟨res, products, h1, h2, h3, x, h4, h5⟩ :=
    C55_tfqmr_spd { A := lin M, b := b, guess := guess, abstol := abstol, reltol := reltol, precon := none } rfl
      (spd_lin hP) n hfr.le kw hg ht hs (by rw [hm]; simp)
  refine ⟨res, products, x, ?_, h2, h3, h4, h5⟩
  rw [hop]
  exact h1

/-- **C64, MINRES.** MINRES on an operator with a symmetric matrix, no singular value of `M - shift I` being below the machine
precision: it returns; if the stop code is not -1 the result is finite; a finite result has the smallest residual in the span of
`b, (M - shift I) b, ...`, and the counter of the operator grows by the number of these vectors. -/
theorem C64_minres (R : ReachTotal env h mats) {i r : ℕ} {A : Mat ℂ} (hr : env[i]? = some r) (hA : mats[i]? = some A) {n : ℕ}
    {M : Matrix (Fin n) (Fin n) ℝ} (hM : IsReal A M) (hS : M.transpose = M) {fuel : ℕ} (hf : h.length ≤ fuel) (b : RVec n)
    (shift ε rtol etol : ℝ) (hε : 0 < ε) (hlow : ∀ z, ε * ‖z‖ ≤ ‖lin M z - shift • z‖) (check storeIterates : Bool)
    (itnlim : Option ℕ) (window : ℕ) (hw : window ≠ 0) (self : MinresObj Fl (Vec (RVec n))) (c : Cnt) :
    ∃ res products,
      minresSolve (apply h fuel r n n) (.fin ε) n self (.fin b)
        ({ A := lin M, b := b, shift := shift, check := check, itnlim := itnlim, rtol := rtol, etol := etol,
           storeIterates := storeIterates, window := window } : MinresProblem (RVec n)).kw = .ok (res, products) ∧
      (res.istop ≠ -1 → res.x ≠ .nan) ∧
      (∀ x, res.x = .fin x →
        x ∈ krylov (lin M - shift • LinearMap.id) b products.length ∧
        ∀ z ∈ krylov (lin M - shift • LinearMap.id) b products.length,
          ‖b - (lin M x - shift • x)‖ ≤ ‖b - (lin M z - shift • z)‖) ∧
      (countsAfter h fuel r products c)[r]? = c[r]?.map (· + products.length) := by
  have hop := (api_ops R hr hA hM hf).1
  obtain ⟨res, products, h1, h2, h3⟩ := C35_residual_partial
    { A := lin M, b := b, shift := shift, check := check, itnlim := itnlim, rtol := rtol, etol := etol,
      storeIterates := storeIterates, window := window } (fun u v => by rw [lin_adj, hS]) ε hε hlow hw n self
  refine ⟨res, products, by rw [hop]; exact h1, h2, fun x hx => ?_,
    C64_counter R.reach hr (fuel_pos (R := R.reach) hr hf) products c⟩
  obtain ⟨xs, e1, e2, -, -, -, -, e7⟩ := h3 x hx
  refine e7 products.length x ?_
  rw [← e2, List.getLast?_eq_getElem?]
  simp [e1]

/-! ### Least squares: the solver uses `op` and `op.T` -/

/-- **C64, LSQR.** LSQR with zero tolerances and the default limit on any operator, `M' b` not being zero: it
reports success and the result solves the normal equations `M'(b - Mx) = damp^2 x`. -/
theorem C64_lsqr (R : ReachTotal env h mats) {i r : ℕ} {A : Mat ℂ} (hr : env[i]? = some r) (hA : mats[i]? = some A) {m n : ℕ}
    (hn : 0 < n) {M : Matrix (Fin m) (Fin n) ℝ} (hM : IsReal A M) {fuel : ℕ} (hf : h.length ≤ fuel) (b : RVec m)
    (hb : M.transpose.mulVec b.ofLp ≠ 0) (damp conlim : ℝ) (storeResids storeIterates : Bool) (window : ℕ) (hw : window ≠ 0) :
    ∃ t, getT h r = some t ∧ ∃ res s x,
      lsqrSolve (apply h fuel r n m) (apply h fuel t m n) n (.fin b)
        { itnlim := 0, damp := .fin damp, atol := .fin 0, btol := .fin 0, conlim := .fin conlim, etol := .fin 0, inf := .nan,
          storeResids := storeResids, storeIterates := storeIterates, window := window } = .ok (res, s) ∧
      res.optimal = true ∧ res.x = .fin x ∧
      M.transpose.mulVec (b.ofLp - M.mulVec x.ofLp) = (damp * damp) • x.ofLp := by
  obtain ⟨t, ht, -⟩ := C64_operator R hr hA hM
  obtain ⟨h1, h2⟩ := api_ops R hr hA hM hf
  have hfr : Module.finrank ℝ (RVec n) = n := finrank_euclideanSpace_fin
  let q : LsqrProblem (RVec n) (RVec m) :=
    { A := lin M, B := lin M.transpose, b := b, n := n, damp := damp, itnlim := 0, atol := 0, btol := 0, etol := 0,
      conlim := conlim, storeResids := storeResids, storeIterates := storeIterates, window := window }
  have hq : q.Valid := ⟨lin_adj M, le_rfl, le_rfl, hw⟩
  obtain ⟨res, s, hs, ho, hx⟩ := C37_converges q hq (fun h0 => hb (congrArg WithLp.ofLp h0))
    (by rw [hfr]; simp [q]; omega) (by simp [q]; omega)
  obtain ⟨x, hx, he⟩ := hx rfl rfl le_rfl
  refine ⟨t, ht, res, s, x, ?_, ho, hx, ?_⟩
  · rw [h1, h2 t ht]; exact hs
  · exact congrArg WithLp.ofLp (sub_eq_zero.1 he)

/-- **C64, LSMR.** The same for LSMR, when there is no `x` with zero residual (`Mx = b` and `damp x = 0`). -/
theorem C64_lsmr (R : ReachTotal env h mats) {i r : ℕ} {A : Mat ℂ} (hr : env[i]? = some r) (hA : mats[i]? = some A) {m n : ℕ}
    {M : Matrix (Fin m) (Fin n) ℝ} (hM : IsReal A M) (hmn : n ≤ m) {fuel : ℕ} (hf : h.length ≤ fuel) (b : RVec m)
    (hb : M.transpose.mulVec b.ofLp ≠ 0) (damp : ℝ) (hno : ∀ x : Fin n → ℝ, ¬ (M.mulVec x = b.ofLp ∧ damp • x = 0))
    (storeResids storeIterates : Bool) (window : ℕ) (hw : window ≠ 0) (selfX : Option (Vec (RVec n))) :
    ∃ t, getT h r = some t ∧ ∃ res s x,
      lsmrSolve (apply h fuel r n m) (apply h fuel t m n) m n (.fin b)
        ({ A := lin M, B := lin M.transpose, b := b, m := m, n := n, damp := damp, itnlim := none, atol := 0, btol := 0, etol := 0,
           conlim := 0, storeResids := storeResids, storeIterates := storeIterates, window := window } :
          LsmrProblem (RVec n) (RVec m)).kw selfX = .ok (res, s) ∧
      1 ≤ res.istop ∧ res.istop ≤ 8 ∧ res.istop ≠ 7 ∧ res.x = .fin x ∧
      M.transpose.mulVec (b.ofLp - M.mulVec x.ofLp) = (damp * damp) • x.ofLp := by
  obtain ⟨t, ht, -⟩ := C64_operator R hr hA hM
  obtain ⟨h1, h2⟩ := api_ops R hr hA hM hf
  have hfr : Module.finrank ℝ (RVec n) = n := finrank_euclideanSpace_fin
  let q : LsmrProblem (RVec n) (RVec m) :=
    { A := lin M, B := lin M.transpose, b := b, m := m, n := n, damp := damp, itnlim := none, atol := 0, btol := 0, etol := 0,
      conlim := 0, storeResids := storeResids, storeIterates := storeIterates, window := window }
  have hq : q.Valid := ⟨lin_adj M, le_rfl, hw⟩
  obtain ⟨res, s, hs, i1, i2, i3, hx⟩ := C51_converges q hq selfX (fun h0 => hb (congrArg WithLp.ofLp h0))
    (by rw [hfr]; simp [q]; omega)
    (fun x hx => hno x.ofLp ⟨congrArg WithLp.ofLp hx.1, congrArg WithLp.ofLp hx.2⟩)
  obtain ⟨x, hx, he⟩ := hx rfl rfl le_rfl le_rfl
  refine ⟨t, ht, res, s, x, ?_, i1, i2, i3, hx, ?_⟩
  · rw [h1, h2 t ht]; exact hs
  · exact congrArg WithLp.ofLp (sub_eq_zero.1 he)

/-- **C64, CRAIG.** CRAIG without positive tolerances and with the default limit: the result solves `(MM' + I) r = b`, `x = M'r`,
and `x` minimizes `|b - Mx|^2 + |x|^2`. -/
theorem C64_craig (R : ReachTotal env h mats) {i r : ℕ} {A : Mat ℂ} (hr : env[i]? = some r) (hA : mats[i]? = some A) {m n : ℕ}
    (hn : 0 < n) {M : Matrix (Fin m) (Fin n) ℝ} (hM : IsReal A M) {fuel : ℕ} (hf : h.length ≤ fuel) (b : RVec m) (hb : b ≠ 0)
    (damp atol btol etol conlim : ℝ) (hbt : btol ≤ 0) (het : etol ≤ 0) (storeResids storeIterates : Bool) (window : ℕ)
    (hw : window ≠ 0) :
    ∃ t, getT h r = some t ∧ ∃ res s x y,
      craigSolve (apply h fuel r n m) (apply h fuel t m n) n (.fin b)
        ({ A := lin M, B := lin M.transpose, b := b, n := n, damp := damp, itnlim := 0, atol := atol, btol := btol,
           etol := etol, conlim := conlim, storeResids := storeResids, storeIterates := storeIterates, window := window } :
          CraigProblem (RVec n) (RVec m)).kw = .ok (res, s) ∧
      res.x = .fin x ∧ res.r = .fin y ∧ y.ofLp + M.mulVec (M.transpose.mulVec y.ofLp) = b.ofLp ∧
      x.ofLp = M.transpose.mulVec y.ofLp ∧
      ∀ z, ‖b - lin M x‖ ^ 2 + ‖x‖ ^ 2 ≤ ‖b - lin M z‖ ^ 2 + ‖z‖ ^ 2 := by
  obtain ⟨t, ht, -⟩ := C64_operator R hr hA hM
  obtain ⟨h1, h2⟩ := api_ops R hr hA hM hf
  have hfr : Module.finrank ℝ (RVec n) = n := finrank_euclideanSpace_fin
  let q : CraigProblem (RVec n) (RVec m) :=
    { A := lin M, B := lin M.transpose, b := b, n := n, damp := damp, itnlim := 0, atol := atol, btol := btol,
      etol := etol, conlim := conlim, storeResids := storeResids, storeIterates := storeIterates, window := window }
  have hq : q.Valid := ⟨lin_adj M, hw⟩
  obtain ⟨res, s, x, y, hs, hx, hy, e1, e2, -, e3, -⟩ := C52_converges q hq hb
    (by simp [q, CraigProblem.limit]; omega) (by rw [hfr]; simp [q, CraigProblem.limit]; omega) hbt het
  refine ⟨t, ht, res, s, x, y, ?_, hx, hy, congrArg WithLp.ofLp e1, congrArg WithLp.ofLp e2, e3⟩
  rw [h1, h2 t ht]
  exact hs

/-- **C64, CRAIG-MR.** CRAIG-MR without positive `etol` and with the default limit: the result solves `(MM' + I) x = b`. -/
theorem C64_craigmr (R : ReachTotal env h mats) {i r : ℕ} {A : Mat ℂ} (hr : env[i]? = some r) (hA : mats[i]? = some A) {m n : ℕ}
    {M : Matrix (Fin m) (Fin n) ℝ} (hM : IsReal A M) (hmn : m ≤ n) {fuel : ℕ} (hf : h.length ≤ fuel) (b : RVec m)
    (damp atol btol etol conlim : ℝ) (he : etol ≤ 0) (storeResids storeIterates : Bool) (window : ℕ) (hw : window ≠ 0) :
    ∃ t, getT h r = some t ∧ ∃ res s x,
      craigmrSolve (apply h fuel r n m) (apply h fuel t m n) m n (.fin b)
        ({ A := lin M, B := lin M.transpose, b := b, m := m, n := n, damp := damp, itnlim := none, atol := atol, btol := btol,
           etol := etol, conlim := conlim, storeResids := storeResids, storeIterates := storeIterates, window := window } :
          CraigmrProblem (RVec n) (RVec m)).kw = .ok (res, s) ∧
      res.x = .fin x ∧ x.ofLp + M.mulVec (M.transpose.mulVec x.ofLp) = b.ofLp := by
  obtain ⟨t, ht, -⟩ := C64_operator R hr hA hM
  obtain ⟨h1, h2⟩ := api_ops R hr hA hM hf
  have hfr : Module.finrank ℝ (RVec m) = m := finrank_euclideanSpace_fin
  let q : CraigmrProblem (RVec n) (RVec m) :=
    { A := lin M, B := lin M.transpose, b := b, m := m, n := n, damp := damp, itnlim := none, atol := atol, btol := btol,
      etol := etol, conlim := conlim, storeResids := storeResids, storeIterates := storeIterates, window := window }
  have hq : q.Valid := ⟨lin_adj M, hw⟩
  obtain ⟨res, s, x, hs, hx, e⟩ := C53_converges q hq he (Or.inl ⟨inferInstance, by rw [hfr]; simp [q]; omega⟩)
  refine ⟨t, ht, res, s, x, ?_, hx, ?_⟩
  · rw [h1, h2 t ht]; exact hs
  · exact congrArg WithLp.ofLp e

/-! ### Programs -/

/-- `A` from the array `[[0, 1], [1, 0]]`, `D = diag(2, 3)`, `S = A + D`, `P = 2 S`: `P` is the matrix
`[[4, 2], [2, 6]]` -/
noncomputable def demo : List (Cmd ℂ) :=
  [.nd ⟨.real, 2, 2, fun i j => if i = j then 0 else 1⟩ false none, .diag ⟨.real, [2, 3]⟩, .add 0 1, .smul 2 2 .int]

theorem demo_wf : WFAll [] demo := by
  refine ⟨⟨?_, by simp, by simp⟩, fun A hA => ?_⟩
  · intro i _ j _
    by_cases hij : i = j <;> simp only [Mat.ofNd, hij, if_true, if_false]
    · exact Subring.zero_mem _
    · exact Subring.one_mem _
  cases hA
  refine ⟨?_, fun A hA => ?_⟩
  · intro a ha
    simp only [List.mem_cons, List.not_mem_nil, or_false] at ha
    rcases ha with rfl | rfl
    · exact ⟨2, by simp⟩
    · exact ⟨3, by simp⟩
  cases hA
  refine ⟨trivial, fun A hA => ?_⟩
  refine ⟨⟨2, by simp⟩, fun A hA => trivial⟩

/-- the matrix of `P` -/
def demoM : Matrix (Fin 2) (Fin 2) ℝ := !![4, 2; 2, 6]

theorem demo_spec : ∃ A0 A1 A2 A3, specAll demo [] = .ok [A0, A1, A2, A3] ∧ IsReal A3 demoM := by
  refine ⟨_, _, _, _, rfl, rfl, rfl, by decide, ?_⟩
  intro i j
  fin_cases i <;> fin_cases j <;> simp [Mat.smul, Mat.add, Mat.diag, Mat.ofNd, demoM] <;> norm_num

theorem demo_posDef : demoM.PosDef := by
  refine Matrix.PosDef.of_dotProduct_mulVec_pos ?_ ?_
  · ext i j
    fin_cases i <;> fin_cases j <;> simp [demoM]
  · intro x hx
    simp only [demoM, Matrix.mulVec, dotProduct, Fin.sum_univ_two, Matrix.of_apply, Matrix.cons_val_zero, Matrix.cons_val_one,
      star_trivial, Pi.star_apply]
    have : 0 < x 0 ^ 2 + x 1 ^ 2 := by
      rcases eq_or_ne (x 0) 0 with h0 | h0
      · have h1 : x 1 ≠ 0 := fun h1 => hx (by ext i; fin_cases i <;> simp [h0, h1])
        positivity
      · positivity
    nlinarith [sq_nonneg (x 0 + x 1), sq_nonneg (x 0 - x 1), sq_nonneg (x 0), sq_nonneg (x 1)]

/-- CG on `P`, and LSQR on `P`, find the solution -/
example (b : RVec 2) (hb : demoM.transpose.mulVec b.ofLp ≠ 0) :
    ∃ env h r t, execAll demo ([], []) = .ok (env, h) ∧ env[3]? = some r ∧ getT h r = some t ∧
      (∃ x, (cgSolve (apply h h.length r 2 2) { abstol := .fin 0, reltol := .fin 0 } 2 {} (.fin b) {}).1.x = some (.fin x) ∧
        demoM.mulVec x.ofLp = b.ofLp) ∧
      ∃ res s x, lsqrSolve (apply h h.length r 2 2) (apply h h.length t 2 2) 2 (.fin b)
        { itnlim := 0, damp := .fin 1, atol := .fin 0, btol := .fin 0, conlim := .fin 0, etol := .fin 0, inf := .nan,
          storeResids := true, storeIterates := false, window := 5 } = .ok (res, s) ∧ res.x = .fin x ∧
        demoM.transpose.mulVec (b.ofLp - demoM.mulVec x.ofLp) = x.ofLp := by
  obtain ⟨A0, A1, A2, A3, hs, hM⟩ := demo_spec
  obtain ⟨env, h, he, hl, R⟩ := C64_programs demo demo_wf (by simp [demo, Cmd.Complete]) _ hs
  have h3 : 3 < env.length := by rw [hl]; simp
  have hr : env[3]? = some env[3] := List.getElem?_eq_getElem h3
  obtain ⟨-, -, ⟨x, hx, -, hx2⟩, -⟩ := C64_cg R hr rfl hM demo_posDef le_rfl b none 0 0 le_rfl {} {} rfl rfl rfl []
  obtain ⟨t, ht, res, s, y, h1, -, h2, h5⟩ := C64_lsqr R hr rfl (by norm_num) hM le_rfl b hb 1 0 true false 5 (by norm_num)
  exact ⟨env, h, _, t, he, hr, ht, ⟨x, hx, hx2 rfl rfl⟩, res, s, y, h1, h2, by simpa using h5⟩

end Verif.Link
