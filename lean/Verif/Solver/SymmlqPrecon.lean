import Verif.Solver.PreconTwo
import Verif.Solver.SymmlqConvProps

/-!
# SYMMLQ with a preconditioner: simulation by the method without, in another inner product
-/

namespace Verif.Solver
open Scalar Vect
open scoped RealInnerProductSpace

section
variable {S V' V : Type} [Scalar S] [Vect S V'] [Vect S V]

/-- the loop variables, read through the two maps -/
def symmlqLoopMap (d : DualMap S V' V) (s : SymmlqLoop S V') : SymmlqLoop S V :=
  { x := d.P s.x, w := d.P s.w, y := d.P s.y, r1 := d.D s.r1, r2 := d.D s.r2, oldb := s.oldb, beta := s.beta, cgnorm := s.cgnorm,
    lqDiag := s.lqDiag, rhs1 := s.rhs1, rhs2 := s.rhs2, tnorm := s.tnorm, gbar := s.gbar, dbar := s.dbar, bstep := s.bstep,
    snprod := s.snprod, ynorm2 := s.ynorm2, gmax := s.gmax, gmin := s.gmin, anorm := s.anorm, acond := s.acond, istop := s.istop,
    itn := s.itn, nMatvec := s.nMatvec, broke := s.broke, iterates := s.iterates.map d.P, calls := s.calls.map d.P }

/-- the keywords without shift: it is part of the operator of the other method -/
def SymmlqKw.noShift (kw : SymmlqKw S) : SymmlqKw S := { kw with shift := none }

/-- The operator, the shift and the preconditioner of `me` correspond to the operator of `me'`, which has no preconditioner. -/
structure SymmlqSim (d : DualMap S V' V) (kw : SymmlqKw S) (me : SymmlqObj V) (me' : SymmlqObj V') : Prop where
  hop : ∀ v, subShift (symmlqShift kw) (me.op (d.P v)) (d.P v) = d.D (me'.op v)
  hpre : ∀ r, applyPrecon me.precon (d.D r) = d.P r
  hpre' : ∀ r, applyPrecon me'.precon r = r

variable {d : DualMap S V' V} {kw : SymmlqKw S} {me : SymmlqObj V} {me' : SymmlqObj V'}

theorem subShift_noShift (kw : SymmlqKw S) (y v : V') : subShift (symmlqShift kw.noShift) y v = y := rfl

theorem symmlqTest_dual (lim : Nat) (beta1 : S) (s : SymmlqLoop S V') :
    symmlqTest kw lim beta1 (symmlqLoopMap d s) = symmlqLoopMap d (symmlqTest kw.noShift lim beta1 s) := rfl

theorem symmlqLanczos_dual (h : SymmlqSim d kw me me') (s : SymmlqLoop S V') :
    symmlqLanczos me kw (symmlqLoopMap d s) =
      (d.P (symmlqLanczos me' kw.noShift s).1, (symmlqLanczos me' kw.noShift s).2.1,
       d.D (symmlqLanczos me' kw.noShift s).2.2.1, d.P (symmlqLanczos me' kw.noShift s).2.2.2.1,
       (symmlqLanczos me' kw.noShift s).2.2.2.2) := by
  unfold symmlqLanczos
  simp only [symmlqLoopMap, ← d.P_smul, h.hop, ← d.D_smul, ← d.D_sub, d.dot_PD, h.hpre, d.dot_DP, h.hpre', subShift_noShift]

theorem symmlqUpdate_dual (h : SymmlqSim d kw me me') (s : SymmlqLoop S V') :
    symmlqUpdate me kw (symmlqLoopMap d s) = symmlqLoopMap d (symmlqUpdate me' kw.noShift s) := by
  unfold symmlqUpdate
  rw [symmlqLanczos_dual h]
  generalize symmlqLanczos me' kw.noShift s = p
  obtain ⟨v, alfa, r2, y, bb⟩ := p
  dsimp only
  have k1 : kw.noShift.storeIterates = kw.storeIterates := rfl
  rw [k1]
  split
  · simp [symmlqLoopMap]
  · simp only [symmlqLoopMap, ← d.P_smul, ← d.P_add, ← d.P_sub]
    congr 1
    · split <;> simp
    · simp

theorem symmlqStep_dual (h : SymmlqSim d kw me me') (lim : Nat) (beta1 : S) (s : SymmlqLoop S V') :
    symmlqStep me kw lim beta1 (symmlqLoopMap d s) = symmlqLoopMap d (symmlqStep me' kw.noShift lim beta1 s) := by
  unfold symmlqStep
  rw [symmlqTest_dual]
  have e : (symmlqLoopMap d (symmlqTest kw.noShift lim beta1 s)).broke = (symmlqTest kw.noShift lim beta1 s).broke := rfl
  dsimp only
  rw [e]
  split
  · rfl
  · exact symmlqUpdate_dual h _

theorem symmlqLoop_dual (h : SymmlqSim d kw me me') (lim : Nat) (beta1 : S) (s : SymmlqLoop S V') :
    symmlqLoop me kw lim beta1 (symmlqLoopMap d s) = symmlqLoopMap d (symmlqLoop me' kw.noShift lim beta1 s) := by
  unfold symmlqLoop
  exact whileLoop_sim (fun (a : SymmlqLoop S V) (b : SymmlqLoop S V') => a = symmlqLoopMap d b) (fun a b hab => by rw [hab]; rfl)
    (fun a b hab _ => by rw [hab]; exact symmlqStep_dual h lim beta1 b) _ _ rfl

/-- the end: the same `x`; the norms are Euclidean norms -/
theorem symmlqFinish_dual (h : SymmlqSim d kw me me') (beta1 : S) (b : V') (s : SymmlqLoop S V') (lqnorm diag : S) :
    symmlqFinish me kw beta1 (d.D b) (symmlqLoopMap d s) lqnorm diag =
      ({ x := d.P (symmlqFinish me' kw.noShift beta1 b s lqnorm diag).1.x,
         residNorm := norm (d.D (b - me'.op (symmlqFinish me' kw.noShift beta1 b s lqnorm diag).1.x)),
         xNorm := norm (d.P (symmlqFinish me' kw.noShift beta1 b s lqnorm diag).1.x),
         nMatvec := (symmlqFinish me' kw.noShift beta1 b s lqnorm diag).1.nMatvec,
         acond := (symmlqFinish me' kw.noShift beta1 b s lqnorm diag).1.acond,
         anorm := (symmlqFinish me' kw.noShift beta1 b s lqnorm diag).1.anorm,
         iterates := (symmlqFinish me' kw.noShift beta1 b s lqnorm diag).1.iterates.map d.P },
       (symmlqFinish me' kw.noShift beta1 b s lqnorm diag).2.map d.P) := by
  have hx : ∀ c : Bool, (if c then (symmlqLoopMap d s).x + smul ((symmlqLoopMap d s).rhs1 / diag) (symmlqLoopMap d s).w
      else (symmlqLoopMap d s).x) = d.P (if c then s.x + smul (s.rhs1 / diag) s.w else s.x) := by
    intro c
    cases c
    · rfl
    · simp only [symmlqLoopMap, if_true, d.P_smul, d.P_add]
  have e1 : (symmlqLoopMap d s).cgnorm = s.cgnorm := rfl
  have e2 : (symmlqLoopMap d s).snprod = s.snprod := rfl
  have e3 : (symmlqLoopMap d s).rhs1 = s.rhs1 := rfl
  have e4 : (symmlqLoopMap d s).bstep = s.bstep := rfl
  have e5 : (symmlqLoopMap d s).nMatvec = s.nMatvec := rfl
  have e6 : (symmlqLoopMap d s).acond = s.acond := rfl
  have e7 : (symmlqLoopMap d s).anorm = s.anorm := rfl
  have e8 : (symmlqLoopMap d s).iterates = s.iterates.map d.P := rfl
  have e9 : (symmlqLoopMap d s).calls = s.calls.map d.P := rfl
  unfold symmlqFinish
  dsimp only
  rw [hx, h.hpre, h.hpre', e1, e2, e3, e4, e5, e6, e7, e8, e9, ← d.P_smul, ← d.P_add, h.hop, d.D_sub, List.map_append]
  rfl
end

variable {E : Type} [NormedAddCommGroup E] [InnerProductSpace ℝ E]

/-- The problem in the inner product of the preconditioner; the shift is part of the operator. -/
noncomputable def SymmlqProblem.warp (q : SymmlqProblem E) (M : E →ₗ[ℝ] E) (h : Spd M) : SymmlqProblem (Warp M h) :=
  { A := warpMap q.B M h M h, b := Warp.mk M h q.b, shift := none, rtol := q.rtol, eps := q.eps, eps3 := q.eps3, check := q.check,
    matvecMax := q.matvecMax, storeIterates := q.storeIterates }

theorem SymmlqProblem.warp_B (q : SymmlqProblem E) (M : E →ₗ[ℝ] E) (h : Spd M) : (q.warp M h).B = (q.warp M h).A := by
  unfold SymmlqProblem.B
  change (q.warp M h).A - (0 : ℝ) • LinearMap.id = _
  rw [zero_smul, sub_zero]

theorem SymmlqProblem.warp_symm (q : SymmlqProblem E) (M : E →ₗ[ℝ] E) (h : Spd M) (hA : ∀ u v, ⟪q.A u, v⟫ = ⟪u, q.A v⟫)
    (u v : Warp M h) : ⟪(q.warp M h).A u, v⟫ = ⟪u, (q.warp M h).A v⟫ := warpMap_adj (q.B_symm hA) M h M h u v

/-- the object with a preconditioner -/
def SymmlqProblem.objP (q : SymmlqProblem E) (pre : Option (Vec E → Vec E)) : SymmlqObj (Vec E) :=
  { op := Vec.op q.A, precon := pre, matvec := some (Vec.op q.A) }

theorem SymmlqProblem.sim (q : SymmlqProblem E) (M : E →ₗ[ℝ] E) (h : Spd M) {pre : Option (Vec E → Vec E)} (hp : PreconIs M pre) :
    SymmlqSim (Warp.dual M h) q.kw (q.objP pre) (q.warp M h).obj where
  hop v := by
    cases v with
    | nan =>
      change subShift (symmlqShift q.kw) Vec.nan Vec.nan = Vec.nan
      unfold subShift
      split <;> rfl
    | fin v => exact q.shift_exact _
  hpre r := by
    change applyPrecon pre _ = _
    rw [hp.apply]; cases r <;> rfl
  hpre' r := rfl

/-- the variables before the loop -/
theorem symmlqStart_precon (q : SymmlqProblem E) (hA : ∀ u v, ⟪q.A u, v⟫ = ⟪u, q.A v⟫) (M : E →ₗ[ℝ] E) (h : Spd M)
    {pre : Option (Vec E → Vec E)} (hp : PreconIs M pre) (he : 0 < q.eps) (he3 : 0 ≤ q.eps3) {β α β' : ℝ} {v r : E}
    (hβ : β = Real.sqrt ⟪q.b, M q.b⟫) (hβ0 : 0 < β) (hv : v = (1 / β) • M q.b) (hα : α = ⟪v, q.B v⟫)
    (hr : r = q.B v - (α / β) • q.b) (hβ' : β' = Real.sqrt ⟪r, M r⟫) :
    symmlqStart (q.objP pre) q.kw (Vec.op q.A) (.fin q.b) =
      ({ x := .fin 0, w := .fin 0, y := .fin (M r), r1 := .fin q.b, r2 := .fin r, oldb := .fin β, beta := .fin β', cgnorm := .fin β,
         lqDiag := none, rhs1 := .fin β, rhs2 := .fin 0, tnorm := .fin (α * α + β' * β'), gbar := .fin α, dbar := .fin β',
         bstep := .fin 0, snprod := .fin 1, ynorm2 := .fin 0, gmax := .fin (|α| + q.eps), gmin := .fin (|α| + q.eps),
         anorm := .fin 0, acond := .fin 0, istop := if β' ≤ q.eps then -1 else 0, itn := 0, nMatvec := 1, broke := false,
         iterates := if q.storeIterates then [.fin 0] else [], calls := [.fin v] }, .fin β, false) := by
  have hap : ∀ z : E, applyPrecon (q.objP pre).precon (Vec.fin z) = .fin (M z) := fun z => hp.apply _
  have hbb : 0 < (⟪q.b, M q.b⟫ : ℝ) := by rw [hβ] at hβ0; exact Real.sqrt_pos.1 hβ0
  have hββ : β * β = ⟪q.b, M q.b⟫ := by rw [hβ, Real.mul_self_sqrt hbb.le]
  have hun : ∀ y u r2 : E, (⟪y, y⟫ : ℝ) = ⟪u, r2⟫ → symmlqUnsym q.kw (Vec.fin y) (Vec.fin u) (Vec.fin r2) = false := by
    intro y u r2 huy
    unfold symmlqUnsym
    have h1 : q.kw.eps = Fl.fin q.eps := rfl
    have h2 : q.kw.eps3 = Fl.fin q.eps3 := rfl
    simp only [h1, h2, Vec.fin_dot, huy, Fl.fin_sub, sub_self, Fl.fin_abs, abs_zero, Fl.fin_add, Fl.fin_mul, gt]
    rw [← Bool.not_eq_true, Fl.fin_lt, not_lt, ← huy]
    have : (0 : ℝ) ≤ ⟪y, y⟫ := real_inner_self_nonneg
    exact mul_nonneg (by linarith) he3
  have hlt0 : ∀ a : ℝ, 0 ≤ a → lt (Fl.fin a) (lit 0) = false := by
    intro a ha
    rw [← Bool.not_eq_true, Fl.lit_eq, Fl.fin_lt, not_lt]; simpa using ha
  have hentry : symmlqEntry (q.objP pre) q.kw (Vec.fin q.b) = (0, false) := by
    unfold symmlqEntry
    simp only [hap, Vec.fin_dot, hlt0 _ hbb.le, Fl.feq_zero, hbb.ne', decide_false, Bool.false_eq_true, if_false]
    split
    · rename_i M' hM'
      have : M' (Vec.fin (M q.b)) = .fin (M (M q.b)) := by
        have := hap (M q.b)
        rw [hM'] at this
        exact this
      rw [this, hun _ _ _ (by rw [h.symm]), Bool.and_false]
      rfl
    · rfl
  have h1 : sqrt (Fl.fin ⟪q.b, M q.b⟫) = .fin β := by rw [Fl.fin_sqrt hbb.le, hβ]
  have h2 : smul (lit 1 / Fl.fin β) (Vec.fin (M q.b)) = .fin v := by
    rw [Fl.lit_eq, Fl.fin_div _ hβ0.ne', Vec.fin_smul, hv]; simp
  have hop : (q.objP pre).op = Vec.op q.A := rfl
  have h3 := q.shift_exact v
  have hvb : (⟪v, q.b⟫ : ℝ) = β := by
    rw [hv, inner_smul_left, h.symm, ← hββ]
    simp
    field_simp
  have hvr : (⟪v, r⟫ : ℝ) = 0 := by
    rw [hr, inner_sub_right, inner_smul_right, hvb, ← hα]
    field_simp
    ring
  have hvv : (⟪v, v⟫ : ℝ) ≠ 0 := by
    rw [inner_self_ne_zero]
    intro h0
    rw [h0, inner_zero_left] at hvb
    exact hβ0.ne hvb
  have hy : Vec.fin (q.B v) - smul (Fl.fin α / Fl.fin β) (Vec.fin q.b) = .fin r := by
    rw [Fl.fin_div _ hβ0.ne', Vec.fin_smul, Vec.fin_sub, hr]
  have hy2 : Vec.fin r - smul (Fl.fin 0 / Fl.fin (⟪v, v⟫ : ℝ)) (Vec.fin v) = .fin r := by
    rw [Fl.fin_div _ hvv, Vec.fin_smul, Vec.fin_sub, zero_div, zero_smul, sub_zero]
  have hb2 : sqrt (Fl.fin ⟪r, M r⟫) = .fin β' := by rw [Fl.fin_sqrt (h.nonneg r), hβ']
  have hun2 : symmlqUnsym q.kw (Vec.op q.A (.fin v)) (.fin v) (Vec.op q.A (Vec.op q.A (.fin v))) = false := by
    rw [Vec.op_fin, Vec.op_fin]
    exact hun _ _ _ (hA _ _)
  have hle : le (Fl.fin β') q.kw.eps = decide (β' ≤ q.eps) := by
    change le (Fl.fin β') (Fl.fin q.eps) = _
    rw [Bool.eq_iff_iff, Fl.fin_le, decide_eq_true_iff]
  unfold symmlqStart
  simp only [hap, Vec.fin_dot, h1, hentry, h2, hop, hun2, Bool.and_false, Bool.false_eq_true, if_false, h3, ← hα, hy, hvr, hy2, hb2,
    hlt0 _ (h.nonneg r), hle, decide_eq_true_eq]
  have k1 : q.kw.eps = Fl.fin q.eps := rfl
  have k2 : q.kw.storeIterates = q.storeIterates := rfl
  have z0 : (lit 0 : Fl) = .fin 0 := by simp
  have z1 : (lit 1 : Fl) = .fin 1 := by simp
  simp only [k1, k2, Fl.fin_mul, Fl.fin_add, Fl.fin_abs, z0, z1]
  rfl

/-- `solve` with a preconditioner, from `solve` in the other inner product -/
theorem symmlqSolve_precon (q : SymmlqProblem E) (hA : ∀ u v, ⟪q.A u, v⟫ = ⟪u, q.A v⟫) (M : E →ₗ[ℝ] E) (h : Spd M)
    {pre : Option (Vec E → Vec E)} (hp : PreconIs M pre) (he : 0 < q.eps) (he3 : 0 ≤ q.eps3) (hb : q.b ≠ 0) (n : ℕ)
    {res : SymmlqRes Fl (Vec (Warp M h))} {products : List (Vec (Warp M h))}
    (hs : symmlqSolve (q.warp M h).obj n (.fin (q.warp M h).b) (q.warp M h).kw = .ok (res, products)) :
    symmlqSolve (q.objP pre) n (.fin q.b) q.kw =
      .ok ({ x := (Warp.dual M h).P res.x,
             residNorm := Vect.norm ((Warp.dual M h).D (.fin (q.warp M h).b - Vec.op (q.warp M h).A res.x)),
             xNorm := Vect.norm ((Warp.dual M h).P res.x), nMatvec := res.nMatvec, acond := res.acond, anorm := res.anorm,
             iterates := res.iterates.map (Warp.dual M h).P }, products.map (Warp.dual M h).P) := by
  obtain ⟨β, hβ⟩ : ∃ β, β = Real.sqrt ⟪q.b, M q.b⟫ := ⟨_, rfl⟩
  have hbb := h.pos _ hb
  have hβ0 : 0 < β := by rw [hβ]; exact Real.sqrt_pos.2 hbb
  obtain ⟨u, hu⟩ : ∃ u, u = (1 / β) • q.b := ⟨_, rfl⟩
  have hv : M u = (1 / β) • M q.b := by rw [hu, map_smul]
  obtain ⟨α, hα⟩ : ∃ α, α = (⟪M u, q.B (M u)⟫ : ℝ) := ⟨_, rfl⟩
  obtain ⟨r, hr⟩ : ∃ r, r = q.B (M u) - (α / β) • q.b := ⟨_, rfl⟩
  obtain ⟨β', hβ'⟩ : ∃ β', β' = Real.sqrt ⟪r, M r⟫ := ⟨_, rfl⟩
  have hst := symmlqStart_precon q hA M h hp he he3 hβ hβ0 hv hα hr hβ'
  have hst' := symmlqStart_precon (q.warp M h) (q.warp_symm M h hA) LinearMap.id Spd.id (PreconIs.none rfl) he he3 (v := Warp.mk M h u)
    (r := Warp.mk M h r) (β := β) (β' := β') (α := α) hβ hβ0 (by rw [hu, map_smul]; rfl)
    (by rw [hα, q.warp_B, h.symm]; rfl) (by rw [q.warp_B, hr, map_sub, map_smul]; rfl) hβ'
  have hg : ∀ w : ℝ, 0 < w → gt (Fl.fin w) (lit 0) = true := by
    intro w hw
    change lt (lit 0) (Fl.fin w) = true
    rw [Fl.lit_eq, Fl.fin_lt]; simpa using hw
  have hg1 : gt (dot (Vec.fin q.b) (applyPrecon (q.objP pre).precon (Vec.fin q.b))) (lit 0) = true := by
    have : applyPrecon (q.objP pre).precon (Vec.fin q.b) = .fin (M q.b) := hp.apply _
    rw [this]
    exact hg _ hbb
  have hg2 : gt (dot (Vec.fin (q.warp M h).b) (applyPrecon (q.warp M h).obj.precon (Vec.fin (q.warp M h).b))) (lit 0) = true :=
    hg _ hbb
  have hm1 : (q.objP pre).matvec = some (Vec.op q.A) := rfl
  have hm2 : (q.warp M h).obj.matvec = some (Vec.op (q.warp M h).A) := rfl
  have hst'' : symmlqStart (q.warp M h).obj (q.warp M h).kw (Vec.op (q.warp M h).A) (.fin (q.warp M h).b) = _ := hst'
  obtain ⟨s', hs'⟩ : ∃ s', symmlqStart (q.warp M h).obj (q.warp M h).kw (Vec.op (q.warp M h).A) (.fin (q.warp M h).b) =
    (s', .fin β, false) := ⟨_, hst''⟩
  have hmap : symmlqStart (q.objP pre) q.kw (Vec.op q.A) (.fin q.b) = (symmlqLoopMap (Warp.dual M h) s', .fin β, false) := by
    rw [hst]
    rw [hst''] at hs'
    have := (Prod.mk.inj hs').1
    rw [← this]
    simp only [symmlqLoopMap]
    congr 2
    · change Vec.fin 0 = Vec.fin (M 0)
      rw [map_zero]
    · change Vec.fin 0 = Vec.fin (M 0)
      rw [map_zero]
    · change (if q.storeIterates = true then [Vec.fin 0] else []) = List.map _ (if q.storeIterates = true then [Vec.fin 0] else [])
      split
      · change [Vec.fin 0] = [Vec.fin (M 0)]
        rw [map_zero]
      · rfl
  have hkw : (q.warp M h).kw = q.kw.noShift := rfl
  have hlim : q.kw.noShift.matvecMax = q.kw.matvecMax := rfl
  unfold symmlqSolve at hs ⊢
  dsimp only at hs ⊢
  by_cases hn : n = 0
  · rw [if_pos hn] at hs; cases hs
  rw [if_neg hn] at hs ⊢
  rw [if_pos hg1]
  rw [if_pos hg2] at hs
  rw [hm2] at hs
  rw [hm1]
  dsimp only at hs ⊢
  rw [hs'] at hs
  rw [hmap]
  simp only [Bool.false_eq_true, if_false] at hs ⊢
  rw [hkw, hlim] at hs
  rw [symmlqLoop_dual (q.sim M h hp)]
  generalize symmlqLoop (q.warp M h).obj q.kw.noShift (q.kw.matvecMax.getD (2 * n + 2)) (Fl.fin β) s' = s at hs ⊢
  have e : (symmlqLoopMap (Warp.dual M h) s).lqDiag = s.lqDiag := rfl
  rw [e]
  cases hl : s.lqDiag with
  | none => rw [hl] at hs; cases hs
  | some ld =>
    obtain ⟨lqnorm, diag⟩ := ld
    rw [hl] at hs
    dsimp only at hs ⊢
    have hs := Except.ok.inj hs
    have hbm : Vec.fin q.b = (Warp.dual M h).D (Vec.fin (q.warp M h).b) := rfl
    rw [hbm, symmlqFinish_dual (q.sim M h hp), hs]
    rfl

end Verif.Solver
