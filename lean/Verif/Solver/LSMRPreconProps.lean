import Verif.Solver.LSMRPrecon
import Verif.Solver.LSQRPreconProps

/-!
# C51 with preconditioners
-/

namespace Verif.Solver
open Scalar Vect
open scoped RealInnerProductSpace
open MinresMath (krylov)

variable {E F : Type} [NormedAddCommGroup E] [InnerProductSpace ℝ E] [NormedAddCommGroup F] [InnerProductSpace ℝ F]

/-- the problem in the other inner products -/
noncomputable def LsmrProblem.warp (q : LsmrProblem E F) (N : E →ₗ[ℝ] E) (hN : Spd N) (M : F →ₗ[ℝ] F) (hM : Spd M) :
    LsmrProblem (Warp N hN) (Warp M hM) :=
  { A := warpMap q.A N hN M hM, B := warpMap q.B M hM N hN, b := Warp.mk M hM q.b, m := q.m, n := q.n, damp := q.damp,
    itnlim := q.itnlim, atol := q.atol, btol := q.btol, etol := q.etol, conlim := q.conlim, storeResids := q.storeResids,
    storeIterates := q.storeIterates, window := q.window }

theorem LsmrProblem.warp_valid {q : LsmrProblem E F} (hq : q.Valid) (N : E →ₗ[ℝ] E) (hN : Spd N) (M : F →ₗ[ℝ] F) (hM : Spd M) :
    (q.warp N hN M hM).Valid := ⟨warpMap_adj hq.adj N hN M hM, hq.atol, hq.window⟩

/-- the Euclidean norm of the iterate -/
theorem warp_normOf (N : E →ₗ[ℝ] E) (hN : Spd N) :
    NormOf (fun x : Vec (Warp N hN) => (Vect.norm ((Warp.dual N hN).P x) : Fl)) (fun x => ‖N ((Warp.mk N hN).symm x)‖) where
  fin _ := rfl
  nonneg _ := norm_nonneg _
  zero := by rw [map_zero, map_zero, norm_zero]

theorem LsmrProblem.warp_solve (q : LsmrProblem E F) (N : E →ₗ[ℝ] E) (hN : Spd N) (M : F →ₗ[ℝ] F) (hM : Spd M)
    {preM : Option (Vec F → Vec F)} {preN : Option (Vec E → Vec E)} (hpM : PreconIs M preM) (hpN : PreconIs N preN) :
    lsmrSolve (Vec.op q.A) (Vec.op q.B) q.m q.n (.fin q.b) { q.kw with M := preM, N := preN } none =
      (lsmrSolveN (fun x => Vect.norm ((Warp.dual N hN).P x)) (Vec.op (q.warp N hN M hM).A) (Vec.op (q.warp N hN M hM).B)
        (q.warp N hN M hM).m (q.warp N hN M hM).n (.fin (q.warp N hN M hM).b) (q.warp N hN M hM).kw none).map fun p =>
          (lsmrResMap (Warp.dual N hN) p.1, lsmrLoopMap (Warp.dual M hM) (Warp.dual N hN) p.2) :=
  lsmrSolve_dual (kw := { q.kw with M := preM, N := preN }) (warp_sim q.A q.B N hN M hM hpM hpN) q.m q.n
    (.fin (q.warp N hN M hM).b) none

/-- the attribute `x` before the call has no influence on the returned values -/
theorem lsmrSolve_selfX {S U V : Type} [Scalar S] [Vect S U] [Vect S V] (A : V → U) (AT : U → V) (m n : Nat) (b : U)
    (kw : LsmrKw S U V) (selfX : Option V) :
    ∃ f : LsmrRes S V × LsmrLoop S U V → Option V,
      lsmrSolve A AT m n b kw selfX = (lsmrSolve A AT m n b kw none).map fun p => ({ p.1 with selfX := f p }, p.2) := by
  unfold lsmrSolve
  cases lsmrInit AT kw b with
  | error e => exact ⟨fun p => p.1.selfX, rfl⟩
  | ok s =>
    simp only [ok_bind]
    unfold lsmrMain
    split
    · exact ⟨fun _ => selfX, rfl⟩
    · refine ⟨fun p => some p.1.x, ?_⟩
      cases lsmrLoop A AT kw (lsmrLimit m n kw.itnlim) s.beta (lsmrFirst kw s) <;> rfl

/-- the residual and normal residual in the other inner products -/
theorem LsmrProblem.warp_resid (q : LsmrProblem E F) (N : E →ₗ[ℝ] E) (hN : Spd N) (M : F →ₗ[ℝ] F) (hM : Spd M) (y : E) :
    (q.warp N hN M hM).resid (Warp.mk N hN y) = Real.sqrt (pnorm M (q.b - q.A (N y)) ^ 2 + q.damp ^ 2 * pnorm N y ^ 2) := by
  unfold LsmrProblem.resid
  have e1 : ‖(q.warp N hN M hM).b - (q.warp N hN M hM).A (Warp.mk N hN y)‖ = pnorm M (q.b - q.A (N y)) :=
    Warp.norm_mk (h := hM) (q.b - q.A (N y))
  have e2 : ‖Warp.mk N hN y‖ = pnorm N y := Warp.norm_mk (h := hN) y
  rw [e1, e2]; rfl

theorem LsmrProblem.warp_normal (q : LsmrProblem E F) (N : E →ₗ[ℝ] E) (hN : Spd N) (M : F →ₗ[ℝ] F) (hM : Spd M) (y : E) :
    (q.warp N hN M hM).normal (Warp.mk N hN y) = pnorm N (q.B (M (q.b - q.A (N y))) - (q.damp * q.damp) • y) :=
  Warp.norm_mk (h := hN) (q.B (M (q.b - q.A (N y))) - (q.damp * q.damp) • y)

theorem LsmrProblem.warp_krylov (q : LsmrProblem E F) (N : E →ₗ[ℝ] E) (hN : Spd N) (M : F →ₗ[ℝ] F) (hM : Spd M) (y : E) (k : ℕ) :
    Warp.mk N hN y ∈ krylov ((q.warp N hN M hM).B ∘ₗ (q.warp N hN M hM).A) ((q.warp N hN M hM).B (q.warp N hN M hM).b) k ↔
      y ∈ krylov (q.B ∘ₗ M ∘ₗ q.A ∘ₗ N) (q.B (M q.b)) k :=
  krylov_mk (M := N) (h := hN) (C := (q.warp N hN M hM).B ∘ₗ (q.warp N hN M hM).A) (B := q.B ∘ₗ M ∘ₗ q.A ∘ₗ N)
    (fun _ => rfl) (q.B (M q.b)) y k

/-- what is known when `solve` with preconditioners ends -/
theorem lsmrSolve_precon (q : LsmrProblem E F) (hq : q.Valid) (selfX : Option (Vec E)) (N : E →ₗ[ℝ] E) (hN : Spd N)
    (M : F →ₗ[ℝ] F) (hM : Spd M) (preM : Option (Vec F → Vec F)) (preN : Option (Vec E → Vec E)) (hpM : PreconIs M preM)
    (hpN : PreconIs N preN) :
    (∃ res s, ∃ ys : List E,
      lsmrSolve (Vec.op q.A) (Vec.op q.B) q.m q.n (.fin q.b) { q.kw with M := preM, N := preN } selfX = .ok (res, s) ∧
      res.itn = ys.length ∧ res.x = .fin (N ((0 :: ys).getLast (by simp))) ∧
      (q.storeIterates = true → res.iterates = (0 :: ys).map fun y => Vec.fin (N y)) ∧
      (q.storeResids = true → q.B (M q.b) ≠ 0 →
        res.resids = (0 :: ys).map (fun y =>
          Fl.fin (Real.sqrt (pnorm M (q.b - q.A (N y)) ^ 2 + q.damp ^ 2 * pnorm N y ^ 2))) ∧
        res.normalEqns = (0 :: ys).map (fun y => Fl.fin (pnorm N (q.B (M (q.b - q.A (N y))) - (q.damp * q.damp) • y)))) ∧
      (∀ y, y = (0 :: ys).getLast (by simp) →
        res.normr = .fin (Real.sqrt (pnorm M (q.b - q.A (N y)) ^ 2 + q.damp ^ 2 * pnorm N y ^ 2)) ∧
        res.normar = .fin (pnorm N (q.B (M (q.b - q.A (N y))) - (q.damp * q.damp) • y)) ∧ res.normx = .fin ‖N y‖) ∧
      (∀ i (h : i < ys.length), ys[i] ∈ krylov (q.B ∘ₗ M ∘ₗ q.A ∘ₗ N) (q.B (M q.b)) (i+1) ∧
        ∀ z ∈ krylov (q.B ∘ₗ M ∘ₗ q.A ∘ₗ N) (q.B (M q.b)) (i+1),
          pnorm N (q.B (M (q.b - q.A (N ys[i]))) - (q.damp * q.damp) • ys[i]) ≤
            pnorm N (q.B (M (q.b - q.A (N z))) - (q.damp * q.damp) • z)) ∧
      (∀ y ∈ ys, ¬ (q.A (N y) = q.b ∧ q.damp • y = 0)) ∧
      (q.B (M q.b) ≠ 0 → lsmrCont (lsmrLimit q.m q.n q.itnlim) s = false ∧
        (∀ _ : FiniteDimensional ℝ E, ∀ d, Confined (q.B ∘ₗ M ∘ₗ q.A ∘ₗ N) (q.B (M q.b)) d →
          ys.length ≤ d ∧ (ys.length < d ∨ res.istop = 1 ∨ res.istop = 2)) ∧
        (q.atol = 0 → q.btol = 0 → q.etol ≤ 0 → q.conlim ≤ 0 → res.istop = 0 ∨ res.istop = 7 ∨
          q.B (M (q.b - q.A (N ((0 :: ys).getLast (by simp))))) - (q.damp * q.damp) • ((0 :: ys).getLast (by simp)) = 0)) ∧
      res.istop = s.istop ∧ res.itn = s.itn) ∨
    (lsmrSolve (Vec.op q.A) (Vec.op q.B) q.m q.n (.fin q.b) { q.kw with M := preM, N := preN } selfX = .error .zeroDivision ∧
      ∃ (k : ℕ) (y : E), 1 ≤ k ∧ (k : ℤ) ≤ q.itnlim.getD (min q.m q.n : ℕ) ∧
        y ∈ krylov (q.B ∘ₗ M ∘ₗ q.A ∘ₗ N) (q.B (M q.b)) k ∧ q.A (N y) = q.b ∧ q.damp • y = 0) := by
  obtain ⟨f, hf⟩ := lsmrSolve_selfX (Vec.op q.A) (Vec.op q.B) q.m q.n (.fin q.b) { q.kw with M := preM, N := preN } selfX
  rw [q.warp_solve N hN M hM hpM hpN] at hf
  rw [hf]
  clear hf
  obtain ⟨i1, i2, e⟩ := LsqrMath.emb_exists (Warp N hN) (Warp M hM)
  obtain ⟨hz, hnz⟩ := lsmrSolveN_exact (q.warp_valid hq N hN M hM) (warp_normOf N hN) e none
  have hBb : (q.warp N hN M hM).B (q.warp N hN M hM).b = 0 ↔ q.B (M q.b) = 0 :=
    LinearEquiv.map_eq_zero_iff (Warp.mk N hN)
  have hzero : ∀ y : E, (q.warp N hN M hM).resid (Warp.mk N hN y) = 0 ↔ q.A (N y) = q.b ∧ q.damp • y = 0 := by
    intro y
    constructor
    · intro h
      obtain ⟨h1, h2⟩ := (q.warp N hN M hM).resid_zero h
      exact ⟨(Warp.mk M hM).injective h1, (LinearEquiv.map_eq_zero_iff (Warp.mk N hN)).1 h2⟩
    · rintro ⟨h1, h2⟩
      rw [q.warp_resid, h1, sub_self]
      have hM0 : pnorm M (0 : F) = 0 := by unfold pnorm; simp
      have hd : q.damp = 0 ∨ pnorm N y = 0 := by
        rcases smul_eq_zero.1 h2 with h | h
        · exact Or.inl h
        · right; rw [h]; unfold pnorm; simp
      rw [hM0]
      rcases hd with h | h <;> rw [h] <;> simp
  by_cases hB : q.B (M q.b) = 0
  · obtain ⟨res, s, hs, k1, k2, k3, k4, k5, k6, k7, -⟩ := hz (hBb.2 hB)
    have hs2 : res.istop = s.istop ∧ res.itn = s.itn := by
      unfold lsmrSolveN at hs
      obtain ⟨s0, -, hs⟩ := except_bind_ok hs
      unfold lsmrMainN at hs
      split at hs
      · cases hs; exact ⟨rfl, rfl⟩
      · obtain ⟨t, -, hs⟩ := except_bind_ok hs
        cases hs; exact ⟨rfl, rfl⟩
    rw [hs]
    refine Or.inl ⟨_, _, [], rfl, k1, ?_, fun h => ?_, fun _ h => absurd hB h, fun y hy => ?_, by simp, by simp,
      fun h => absurd hB h, hs2⟩
    · change (Warp.dual N hN).P res.x = _
      rw [k3]; rfl
    · change res.iterates.map (Warp.dual N hN).P = _
      rw [k7]
      change (if q.storeIterates = true then _ else _ : List _).map _ = _
      rw [if_pos h]; rfl
    · have hy : y = 0 := hy
      subst hy
      have n0 : pnorm N (0 : E) = 0 := by unfold pnorm; simp
      refine ⟨k4.trans ?_, k5.trans ?_, k6.trans ?_⟩
      · have : ‖(q.warp N hN M hM).b‖ = pnorm M q.b := Warp.norm_mk (h := hM) q.b
        rw [this, map_zero, map_zero, sub_zero, n0]
        have : (0:ℝ) ≤ pnorm M q.b := Real.sqrt_nonneg _
        simp [Real.sqrt_sq this]
      · rw [map_zero, map_zero, sub_zero, hB, smul_zero, sub_zero, n0]
      · rw [map_zero, norm_zero]
  · rcases hnz (fun h => hB (hBb.1 h)) with ⟨s, xs, hs, hh, hc, hcase, hcount⟩ | ⟨er, he, rfl, k, x, h1, h2, h3, h4⟩
    · obtain ⟨ys, rfl⟩ := list_mk xs
      have hl : (ys.map (Warp.mk N hN)).getLastD 0 = Warp.mk N hN ((0 :: ys).getLast (by simp)) := by
        have : (0 :: ys).getLast (by simp) = ys.getLastD 0 := by
          cases ys with
          | nil => rfl
          | cons a l => rw [List.getLast_cons (by simp), List.getLastD_cons, List.getLast_eq_getLastD]
        rw [this]
        exact getLastD_mk ys
      have hlen : (ys.map (Warp.mk N hN)).length = ys.length := List.length_map ..
      rw [hs]
      refine Or.inl ⟨_, _, ys, rfl, hh.itn.trans hlen, ?_, fun h => ?_, fun h _ => ⟨?_, ?_⟩, fun y hy => ⟨?_, ?_, ?_⟩,
        fun i h => ?_, fun y hy h => ?_, fun _ => ⟨hc, fun hf d hd => ?_, fun ha hb he hd => ?_⟩, rfl, rfl⟩
      · change (Warp.dual N hN).P s.x = _
        rw [hh.x, hl]; rfl
      · change s.iterates.map (Warp.dual N hN).P = _
        rw [hh.iterates]
        change (if q.storeIterates = true then _ else _ : List _).map _ = _
        rw [if_pos h]
        simp only [List.map_cons, List.map_map]
        rfl
      · refine hh.resids.trans ((if_pos h).trans ?_)
        have : (0 :: ys.map (Warp.mk N hN)) = (0 :: ys).map (Warp.mk N hN) := by simp
        rw [this, List.map_map]
        refine List.map_congr_left fun y _ => ?_
        rw [← q.warp_resid N hN M hM]; rfl
      · refine hh.normalEqns.trans ((if_pos h).trans ?_)
        have : (0 :: ys.map (Warp.mk N hN)) = (0 :: ys).map (Warp.mk N hN) := by simp
        rw [this, List.map_map]
        refine List.map_congr_left fun y _ => ?_
        rw [← q.warp_normal N hN M hM]; rfl
      · rw [hy, ← q.warp_resid N hN M hM, ← hl]; exact hh.normr
      · rw [hy, ← q.warp_normal N hN M hM, ← hl]; exact hh.normar
      · refine hh.normx.trans ?_
        rw [hl, hy]; rfl
      · obtain ⟨m1, m2⟩ := hh.best i (by rw [hlen]; exact h)
        rw [List.getElem_map] at m1 m2
        refine ⟨(q.warp_krylov N hN M hM _ _).1 m1, fun z hz => ?_⟩
        have := m2 _ ((q.warp_krylov N hN M hM z _).2 hz)
        rw [q.warp_normal, q.warp_normal] at this
        exact this
      · exact hh.nz (Warp.mk N hN y) (List.mem_map_of_mem hy) ((hzero y).2 h)
      · have hfin : FiniteDimensional ℝ (Warp N hN) := Module.Finite.equiv (Warp.mk N hN)
        have hd' := hd.map (Warp.mk N hN) (B' := (q.warp N hN M hM).B ∘ₗ (q.warp N hN M hM).A) (fun z => rfl)
        refine ⟨by rw [← hlen]; exact hcount hfin d hd', ?_⟩
        rcases hcase with hg | hg
        · left
          obtain ⟨_, _, _, _, _, _, _, _, _, _, _, _, _, _, _, _, _, _, _, _, -, _, _, _, _, _, _, _, _, _, _, _, _, hrun, -⟩ := hg
          have := hrun.gk.lt_confined hd'
          rw [hlen] at this
          exact this
        · right; exact hg
      · rcases hh.done ha hb he hd with h | h | h
        · exact Or.inl h
        · exact Or.inr (Or.inl h)
        · right; right
          rw [hl] at h
          exact (LinearEquiv.map_eq_zero_iff (Warp.mk N hN)).1 (norm_eq_zero.1 h)
    · obtain ⟨y, rfl⟩ := (Warp.mk N hN).surjective x
      obtain ⟨h5, h6⟩ := (hzero y).1 h4
      rw [he]
      exact Or.inr ⟨rfl, k, y, h1, h2, (q.warp_krylov N hN M hM y k).1 h3.1, h5, h6⟩

/-- **C51 with preconditioners.** In exact arithmetic, with symmetric positive definite preconditioners `M`, `N` (or without one or
both of them), for every operator, right-hand side and keywords (`atol` not negative, `window` positive), one of the following holds.

* `solve` returns, and there is a list of vectors `ys` such that the iterates are `x = N y` for the elements `y` of `0 :: ys`; with
  the options that store them, `resids` are the values `sqrt((b - Ax)'M(b - Ax) + damp^2 y'Ny)` and `normal_eqns_resids` the norms
  of `A'M(b - Ax) - damp^2 y` in the inner product of `N`; `normr`, `normar` are these values at the returned `x` and `normx` is its
  Euclidean norm; the `i`-th `y` minimizes the norm of `A'M(b - ANy) - damp^2 y` over the span of
  `A'Mb, ..., (A'MAN)^(i-1)A'Mb`; and no iterate has a zero residual.
* `solve` raises `ZeroDivisionError`, and within the iteration limit a vector of one of these spaces has zero residual. -/
theorem C51_preconditioned (q : LsmrProblem E F) (hq : q.Valid) (selfX : Option (Vec E)) (N : E →ₗ[ℝ] E) (hN : Spd N)
    (M : F →ₗ[ℝ] F) (hM : Spd M) (preM : Option (Vec F → Vec F)) (preN : Option (Vec E → Vec E)) (hpM : PreconIs M preM)
    (hpN : PreconIs N preN) :
    (∃ res s, ∃ ys : List E,
      lsmrSolve (Vec.op q.A) (Vec.op q.B) q.m q.n (.fin q.b) { q.kw with M := preM, N := preN } selfX = .ok (res, s) ∧
      res.itn = ys.length ∧ res.x = .fin (N ((0 :: ys).getLast (by simp))) ∧
      (q.storeIterates = true → res.iterates = (0 :: ys).map fun y => Vec.fin (N y)) ∧
      (q.storeResids = true → q.B (M q.b) ≠ 0 →
        res.resids = (0 :: ys).map (fun y =>
          Fl.fin (Real.sqrt (pnorm M (q.b - q.A (N y)) ^ 2 + q.damp ^ 2 * pnorm N y ^ 2))) ∧
        res.normalEqns = (0 :: ys).map (fun y => Fl.fin (pnorm N (q.B (M (q.b - q.A (N y))) - (q.damp * q.damp) • y)))) ∧
      (∀ y, y = (0 :: ys).getLast (by simp) →
        res.normr = .fin (Real.sqrt (pnorm M (q.b - q.A (N y)) ^ 2 + q.damp ^ 2 * pnorm N y ^ 2)) ∧
        res.normar = .fin (pnorm N (q.B (M (q.b - q.A (N y))) - (q.damp * q.damp) • y)) ∧ res.normx = .fin ‖N y‖) ∧
      (∀ i (h : i < ys.length), ys[i] ∈ krylov (q.B ∘ₗ M ∘ₗ q.A ∘ₗ N) (q.B (M q.b)) (i+1) ∧
        ∀ z ∈ krylov (q.B ∘ₗ M ∘ₗ q.A ∘ₗ N) (q.B (M q.b)) (i+1),
          pnorm N (q.B (M (q.b - q.A (N ys[i]))) - (q.damp * q.damp) • ys[i]) ≤
            pnorm N (q.B (M (q.b - q.A (N z))) - (q.damp * q.damp) • z)) ∧
      (∀ y ∈ ys, ¬ (q.A (N y) = q.b ∧ q.damp • y = 0))) ∨
    (lsmrSolve (Vec.op q.A) (Vec.op q.B) q.m q.n (.fin q.b) { q.kw with M := preM, N := preN } selfX = .error .zeroDivision ∧
      ∃ (k : ℕ) (y : E), 1 ≤ k ∧ (k : ℤ) ≤ q.itnlim.getD (min q.m q.n : ℕ) ∧
        y ∈ krylov (q.B ∘ₗ M ∘ₗ q.A ∘ₗ N) (q.B (M q.b)) k ∧ q.A (N y) = q.b ∧ q.damp • y = 0) := by
  rcases lsmrSolve_precon q hq selfX N hN M hM preM preN hpM hpN with ⟨res, s, ys, h0, h1, h2, h3, h4, h5, h6, h7, -⟩ | h
  · exact Or.inl ⟨res, s, ys, h0, h1, h2, h3, h4, h5, h6, h7⟩
  · exact Or.inr h

/-- C51 and C71 with preconditioners: `A'Mb` is confined to `d` dimensions under `A'MAN` -/
theorem lsmr_precon_confined [FiniteDimensional ℝ E] (q : LsmrProblem E F) (hq : q.Valid) (selfX : Option (Vec E))
    (hn : ∀ x, ¬ (q.A x = q.b ∧ q.damp • x = 0))
    (N : E →ₗ[ℝ] E) (hN : Spd N) (M : F →ₗ[ℝ] F) (hM : Spd M) (hb : q.B (M q.b) ≠ 0) {d : ℕ}
    (hd : Confined (q.B ∘ₗ M ∘ₗ q.A ∘ₗ N) (q.B (M q.b)) d) (hl : (d : ℤ) ≤ q.itnlim.getD (min q.m q.n : ℕ))
    (preM : Option (Vec F → Vec F)) (preN : Option (Vec E → Vec E)) (hpM : PreconIs M preM) (hpN : PreconIs N preN) :
    ∃ res s, lsmrSolve (Vec.op q.A) (Vec.op q.B) q.m q.n (.fin q.b) { q.kw with M := preM, N := preN } selfX = .ok (res, s) ∧
      1 ≤ res.istop ∧ res.istop ≤ 8 ∧ res.istop ≠ 7 ∧ res.itn ≤ d ∧
      (q.atol = 0 → q.btol = 0 → q.etol ≤ 0 → q.conlim ≤ 0 →
        ∃ y, res.x = .fin (N y) ∧ q.B (M (q.b - q.A (N y))) - (q.damp * q.damp) • y = 0) := by
  rcases lsmrSolve_precon q hq selfX N hN M hM preM preN hpM hpN with
    ⟨res, s, ys, hs, h1, h2, -, -, -, -, -, h8, h9, h10⟩ | ⟨-, k, y, -, -, -, h5, h6⟩
  · obtain ⟨hc, hdim, hdone⟩ := h8 hb
    have hst := C40_status_partial _ _ _ _ _ _ _ _ _ hs
    have h8' := hst.2.1
    have h7 := hst.2.2.2.2.2.1
    have hlim : lsmrLimit q.m q.n q.itnlim = q.itnlim.getD (min q.m q.n : ℕ) := rfl
    have hne : res.istop ≠ 0 ∧ res.istop ≠ 7 := by
      rcases (hdim inferInstance d hd).2 with hg | hg
      · have hlt : (res.itn : ℤ) < lsmrLimit q.m q.n q.itnlim := by rw [h1, hlim]; omega
        constructor
        · intro h0
          rw [h9] at h0
          rw [h10] at hlt
          simp [lsmrCont, h0] at hc
          omega
        · intro h0
          have : (res.itn : ℤ) = lsmrLimit q.m q.n q.itnlim := h7 h0
          omega
      · omega
    refine ⟨res, s, hs, Nat.one_le_iff_ne_zero.2 hne.1, h8', hne.2, h1.trans_le (hdim inferInstance d hd).1, fun ha hb' he hcl => ⟨_, h2, ?_⟩⟩
    exact (hdone ha hb' he hcl).resolve_left hne.1 |>.resolve_left hne.2
  · refine absurd ⟨h5, ?_⟩ (hn (N y))
    rw [← map_smul, h6, map_zero]

/-- **C51 with preconditioners, convergence.** If `A'Mb ≠ 0`, the iteration limit is at least the dimension and no vector has zero
residual, `solve` returns with one of the codes 1 to 6 or 8, and for zero tolerances the returned `x` is `N y` with
`A'M(b - Ax) = damp^2 y`: it minimizes `(b - Ax)'M(b - Ax) + damp^2 x'N⁻¹x`. -/
theorem C51_preconditioned_converges [FiniteDimensional ℝ E] (q : LsmrProblem E F) (hq : q.Valid) (selfX : Option (Vec E))
    (hl : (Module.finrank ℝ E : ℤ) ≤ q.itnlim.getD (min q.m q.n : ℕ)) (hn : ∀ x, ¬ (q.A x = q.b ∧ q.damp • x = 0))
    (N : E →ₗ[ℝ] E) (hN : Spd N) (M : F →ₗ[ℝ] F) (hM : Spd M) (hb : q.B (M q.b) ≠ 0)
    (preM : Option (Vec F → Vec F)) (preN : Option (Vec E → Vec E)) (hpM : PreconIs M preM) (hpN : PreconIs N preN) :
    ∃ res s, lsmrSolve (Vec.op q.A) (Vec.op q.B) q.m q.n (.fin q.b) { q.kw with M := preM, N := preN } selfX = .ok (res, s) ∧
      1 ≤ res.istop ∧ res.istop ≤ 8 ∧ res.istop ≠ 7 ∧
      (q.atol = 0 → q.btol = 0 → q.etol ≤ 0 → q.conlim ≤ 0 →
        ∃ y, res.x = .fin (N y) ∧ q.B (M (q.b - q.A (N y))) - (q.damp * q.damp) • y = 0) := by
  obtain ⟨res, s, h1, h2, h3, h4, -, h5⟩ := lsmr_precon_confined q hq selfX hn N hN M hM hb (confined_of_finrank le_rfl) hl
    preM preN hpM hpN
  exact ⟨res, s, h1, h2, h3, h4, h5⟩

/-- the hypotheses of `C51_preconditioned` are met -/
example := C51_preconditioned (lsmrDemo 2 1 1 1 none) (lsmrDemo_valid _ _ _ _ _) none _ (Spd.scale (by norm_num : (0:ℝ) < 5)) _
  diagOneFour_spd _ _ .some .some

/-- the hypotheses of `C51_preconditioned_converges` are met: `A = diag(1, 2)`, `b = (1, 1)`, `damp = 1`, `M = diag(1, 4)` -/
example : ∃ res s, lsmrSolve (Vec.op (lsmrDemo 2 1 1 1 none).A) (Vec.op (lsmrDemo 2 1 1 1 none).B) 2 2 (.fin !₂[1, 1])
    { (lsmrDemo 2 1 1 1 none).kw with M := some (Vec.op diagOneFour), N := none } none = .ok (res, s) ∧ 1 ≤ res.istop := by
  obtain ⟨res, s, hs, h, -⟩ := C51_preconditioned_converges (lsmrDemo 2 1 1 1 none) (lsmrDemo_valid _ _ _ _ _) none
    (by simp [lsmrDemo]) (by
      rintro x ⟨h1, h2⟩
      have h2' : x = 0 := by simpa [lsmrDemo] using h2
      rw [h2', map_zero] at h1
      have h0 := congrArg (fun x => x 0) h1
      simp [lsmrDemo] at h0) _ Spd.id _ diagOneFour_spd (by
      intro h
      have := congrArg (fun z : EuclideanSpace ℝ (Fin 2) => z 0) h
      simp [lsmrDemo, diagOneFour, Matrix.toLpLin_apply, Matrix.mulVec, dotProduct] at this) _ _ .some (.none rfl)
  exact ⟨res, s, hs, h⟩

end Verif.Solver
