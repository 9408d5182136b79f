import Verif.Solver.RateProps
import Verif.Solver.SingularProps

/-!
# C85: rates of convergence on singular and rank-deficient systems

As for C72, but only the eigenvalues (singular values) other than zero count.
-/

namespace Verif.Solver
open Scalar Vect
open scoped RealInnerProductSpace
open MinresMath (krylov krylov_mono krylov_map)

variable {E F : Type} [NormedAddCommGroup E] [InnerProductSpace ℝ E] [NormedAddCommGroup F] [InnerProductSpace ℝ F]

/-- **Specification.** All eigenvalues of the symmetric map `G` other than zero lie between `lo` and `hi`: in the range of `G`, that is
orthogonally to the kernel, the quotients `⟪z, G z⟫ / ‖z‖²` lie between `lo` and `hi`. -/
def NonzeroSpectrumIn (G : E →ₗ[ℝ] E) (lo hi : ℝ) : Prop :=
  ∀ z ∈ LinearMap.range G, lo * ‖z‖ ^ 2 ≤ ⟪z, G z⟫ ∧ (⟪z, G z⟫ : ℝ) ≤ hi * ‖z‖ ^ 2

/-- **C85, CG.** In exact arithmetic, CG without preconditioner on a symmetric positive semidefinite operator, singular or not, whose
eigenvalues other than zero lie between `lo > 0` and `hi`, for every right-hand side in the range, guess, and options with
`abstol ≥ 0` and `reltol > 0`: CG converges within `k` iterations for every `k` that is at least
`(sqrt(κ) + 1) / 2 * log(2 sqrt(κ) / reltol)`, where `κ = hi / lo`, if the budget allows `k` iterations; the result differs from the guess by
a vector in the range. Neither the dimension nor the rank appears. -/
theorem C85_cg [FiniteDimensional ℝ E] (q : UnitProblem E) (hp : q.precon = none) (hA : PSD q.A) (hb : q.b ∈ LinearMap.range q.A)
    {lo hi : ℝ} (h0 : 0 < lo) (h : lo ≤ hi) (hs : NonzeroSpectrumIn q.A lo hi) (n : ℕ) (mm : Option Nat) (c r i : Bool)
    (hat : 0 ≤ q.abstol) (hrt : 0 < q.reltol) (k : ℕ)
    (hk : (Real.sqrt (hi / lo) + 1) / 2 * Real.log (2 * Real.sqrt (hi / lo) / q.reltol) ≤ k)
    (hm : k + (if q.guess.isSome then 1 else 0) ≤ mm.getD (2 * n)) :
    let res := (cgSolve (Vec.op q.A) q.opts n {} (.fin q.b) (q.cgKw mm c r i)).1
    res.converged = true ∧ res.nMatvec ≤ k + (if q.guess.isSome then 1 else 0) ∧ ∃ x, res.x = some (.fin x) ∧ q.Found x := by
  obtain ⟨b, hb'⟩ : ∃ b : LinearMap.range q.A, q.cold.b = b := ⟨⟨_, q.cold_b hb⟩, rfl⟩
  obtain ⟨m, hm'⟩ : ∃ m, mm.getD (2 * n) = m + if q.guess.isSome then 1 else 0 :=
    ⟨mm.getD (2 * n) - if q.guess.isSome then 1 else 0, by omega⟩
  rw [cgSolve_limit q n mm c r i]
  have hc := cg_cold q n m c r i
  rw [← hm'] at hc
  have hc' := C76_cg_partial (cold_same hp b hb') one_pos one_pos n (some m) c r i
  obtain ⟨h1, h2, x, h3, h4⟩ := C72_cg_condition (rangeProblem q.A b q.abstol q.reltol).cg hA.onRange.1 h0 h
    (fun z => hs z z.2) n {} ((rangeProblem q.A b q.abstol q.reltol).cgKw (some m) c r i) rfl rfl hat hrt k hk (by
      change k + 0 ≤ m
      omega)
  obtain ⟨c1, c2, c3, c4, c5⟩ := hc
  obtain ⟨s1, -, -, s2, s3, s4, s5, -⟩ := hc'
  refine ⟨c2.trans (s2.trans h1), c4.trans_le (Nat.add_le_add_right (s3.trans_le h2) _), q.start + x, ?_, ?_⟩
  · refine c1.trans ?_
    rw [s1]
    refine (congrArg (fun v => (Option.map _ v).map _) h3).trans ?_
    simp [Vec.sc]
  · refine q.found hA x.2 ?_
    rw [← rangeProblem_threshold b hb', hb']
    exact h4

/-! ### MINRES -/

/-- **C85, MINRES.** In exact arithmetic, a new MINRES object without preconditioner on a symmetric operator, if the absolute values of
the eigenvalues of `B = A - shift I` other than zero lie between `lo > 0` and `hi`, where `lo` is at least the machine precision `ε`, for
every right-hand side in the range of `B`: unless the solve breaks down with `istop = -1`, it returns a vector `x`, the entry `i` (from
0) of `residHistory` is at most `2 ((κ - 1) / (κ + 1))^((i+1)/2)` times the norm of the right-hand side, where `κ = hi / lo`, and if `B` is
positive semidefinite at most `2 ((sqrt(κ) - 1) / (sqrt(κ) + 1))^(i+1)` times that norm; there is one entry for each product, and the
residual norm of `x` is the last entry. -/
theorem C85_minres [FiniteDimensional ℝ E] (q : MinresProblem E) (hA : ∀ u v, ⟪q.A u, v⟫ = ⟪u, q.A v⟫) (ε : ℝ) (hε : 0 < ε)
    {lo hi : ℝ} (hlo : ε ≤ lo) (h : lo ≤ hi) (hs : ∀ z ∈ LinearMap.range q.B, lo * ‖z‖ ≤ ‖q.B z‖ ∧ ‖q.B z‖ ≤ hi * ‖z‖)
    (hw : q.window ≠ 0) (hb : q.b ∈ LinearMap.range q.B) (n : ℕ) :
    ∃ res products, minresSolve (Vec.op q.A) (.fin ε) n { residHistory := [] } (.fin q.b) q.kw = .ok (res, products) ∧
      (res.istop = -1 ∨ ∃ x, res.x = .fin x ∧ x ∈ LinearMap.range q.B ∧ ∃ rs : List ℝ, res.residHistory = rs.map Fl.fin ∧
        rs.length = products.length ∧ (‖q.b‖ :: rs).getLast? = some ‖q.b - q.B x‖ ∧
        ∀ (i : ℕ) (r : ℝ), rs[i]? = some r → r ≤ 2 * ((hi - lo) / (hi + lo)) ^ ((i + 1) / 2) * ‖q.b‖ ∧
          ((∀ z, 0 ≤ ⟪z, q.B z⟫) → r ≤ 2 * rate lo hi ^ (i + 1) * ‖q.b‖)) := by
  obtain ⟨b, hb'⟩ : ∃ b : LinearMap.range q.B, q.b = b := ⟨⟨_, hb⟩, rfl⟩
  have hsym : ∀ u v, ⟪(q.range b).A u, v⟫ = ⟪u, (q.range b).A v⟫ := fun u v => hA u v
  obtain ⟨res', products', h', h2, h3⟩ := C72_minres_partial (q.range b) hsym ε hε hlo h (fun z => hs z z.2) hw n { residHistory := [] }
  have hs' := C76_minres_partial (Q := (LinearMap.range q.B).subtypeₗᵢ) (q := q.range b) (q' := q) (M := none) (M' := none) (fun v => rfl)
    hb' rfl (by simp) rfl (.fin ε) n
  have e : minresSolve (Vec.op (q.range b).A) (.fin ε) n { residHistory := [] } (.fin (q.range b).b)
    { (q.range b).kw with
      precon := (none : Option (LinearMap.range q.B →ₗ[ℝ] LinearMap.range q.B)).map
        fun m : LinearMap.range q.B →ₗ[ℝ] LinearMap.range q.B => Vec.op m } =
    .ok (res', products') := h'
  rw [e] at hs'
  have e' : minresSolve (Vec.op q.A) (.fin ε) n { residHistory := [] } (.fin q.b)
    { q.kw with precon := (none : Option (E →ₗ[ℝ] E)).map fun m : E →ₗ[ℝ] E => Vec.op m } =
    minresSolve (Vec.op q.A) (.fin ε) n { residHistory := [] } (.fin q.b) q.kw := rfl
  rw [e'] at hs'
  revert hs'
  cases minresSolve (Vec.op q.A) (.fin ε) n { residHistory := [] } (.fin q.b) q.kw with
  | error e => exact fun h => h.elim
  | ok run =>
    intro hs'
    refine ⟨run.1, run.2, rfl, ?_⟩
    by_cases hm : res'.istop = -1
    · exact Or.inl (hs'.1.istop.trans hm)
    refine Or.inr ?_
    cases hx : res'.x with
    | nan => exact absurd hx (h2 hm)
    | fin x =>
      obtain ⟨xs, k1, k2, k3, k4⟩ := h3 x hx
      have hbn : ‖(q.range b).b‖ = ‖q.b‖ := by rw [hb']; rfl
      have hrn : ∀ y : LinearMap.range q.B, ‖(q.range b).b - ((q.range b).A y - (q.range b).shift • y)‖ = ‖q.b - q.B y‖ := by
        intro y; rw [hb']; rfl
      refine ⟨x, ?_, x.2, xs.map fun y : LinearMap.range q.B => ‖q.b - q.B y‖, ?_, ?_, ?_, ?_⟩
      · rw [hs'.1.x, hx]; simp [Vec.sc]
      · rw [hs'.1.residHistory, k3, List.nil_append, List.map_map]
        refine List.map_congr_left fun y _ => ?_
        rw [hrn]; rfl
      · rw [List.length_map, k1, hs'.2, List.length_map]
      · have e0 : ‖q.b‖ :: xs.map (fun y : LinearMap.range q.B => ‖q.b - q.B y‖) = (0 :: xs).map fun y : LinearMap.range q.B => ‖q.b - q.B y‖ := by simp
        rw [e0, List.getLast?_map, k2]; rfl
      · intro i r hr
        rw [List.getElem?_map] at hr
        obtain ⟨y, hy, rfl⟩ := Option.map_eq_some_iff.1 hr
        obtain ⟨g1, g2⟩ := k4 (i + 1) y (by simpa using hy)
        rw [hrn, hbn] at g1 g2
        exact ⟨g1, fun hpos => g2 fun z => hpos z⟩

/-! ### Least-squares solvers -/

/-- `exists_krylov_point` in an invariant subspace -/
theorem exists_krylov_point_in [FiniteDimensional ℝ E] {G : E →ₗ[ℝ] E} (hG : ∀ u v, ⟪G u, v⟫ = ⟪u, G v⟫) (W : Submodule ℝ E)
    (hW : ∀ w ∈ W, G w ∈ W) {lo hi : ℝ} (h0 : 0 < lo) (h : lo ≤ hi)
    (hs : ∀ z ∈ W, lo * ‖z‖ ^ 2 ≤ ⟪z, G z⟫ ∧ (⟪z, G z⟫ : ℝ) ≤ hi * ‖z‖ ^ 2) {c : E} (hc : c ∈ W) :
    (∃ x ∈ W, G x = c) ∧ ∀ k : ℕ, ∃ y ∈ krylov G c k, y ∈ W ∧ ‖c - G y‖ ≤ 2 * rate lo hi ^ k * ‖c‖ ∧
      ∀ x ∈ W, G x = c → (⟪x - y, G (x - y)⟫ : ℝ) ≤ (2 * rate lo hi ^ k) ^ 2 * ⟪x, G x⟫ := by
  let G' : W →ₗ[ℝ] W := G.restrict hW
  have hG' : ∀ u v, ⟪G' u, v⟫ = ⟪u, G' v⟫ := fun u v => hG u v
  have hs' : SpectrumIn G' lo hi := fun z => hs z z.2
  refine ⟨?_, fun k => ?_⟩
  · obtain ⟨x, hx⟩ := surj_of_spectrum h0 hs' ⟨c, hc⟩
    exact ⟨x, x.2, congrArg Subtype.val hx⟩
  · obtain ⟨y, hy, hy1, hy2⟩ := exists_krylov_point hG' h0 h hs' ⟨c, hc⟩ k
    refine ⟨y, ?_, y.2, hy1, fun x hx hxc => hy2 ⟨x, hx⟩ (Subtype.ext hxc)⟩
    have hpow : ∀ (j : ℕ) (w : W), (((G' ^ j) w : W) : E) = (G ^ j) (w : E) := by
      intro j
      induction j with
      | zero => intro w; rfl
      | succ j ih => intro w; rw [pow_succ, pow_succ]; exact ih (G' w)
    have : krylov G' ⟨c, hc⟩ k ≤ (krylov G c k).comap W.subtype := by
      refine Submodule.span_le.2 ?_
      rintro v ⟨j, hj, rfl⟩
      exact Submodule.subset_span ⟨j, hj, hpow j ⟨c, hc⟩⟩
    exact this hy

/-- **C85, LSQR.** In exact arithmetic, without preconditioners, for every operator, of whatever rank, right-hand side, damping and
keywords: if the eigenvalues of `A'A + damp^2 I` on the range of `A'` lie between `lo > 0` and `hi` (for `damp = 0` these are the squares of
the singular values of `A` other than zero), then there are iterates, starting with 0 and ending with the returned `x` (stored if this is
requested), and a minimizer `sol` of `f(x) = |b - Ax|^2 + damp^2 |x|^2`, the one of smallest norm if `damp = 0`, such that the value of `f` at
the iterate `k` exceeds its minimum by at most `(2 ((sqrt(κ) - 1) / (sqrt(κ) + 1))^k)^2` times the excess of `f(0) = |b|^2`, where
`κ = hi / lo`; and the squared distance to `sol` is at most `1 / lo` times that. -/
theorem C85_lsqr [FiniteDimensional ℝ E] (q : LsqrProblem E F) (hq : q.Valid) {lo hi : ℝ} (h0 : 0 < lo) (h : lo ≤ hi)
    (hs : ∀ z ∈ LinearMap.range q.B,
      lo * ‖z‖ ^ 2 ≤ ‖q.A z‖ ^ 2 + q.damp ^ 2 * ‖z‖ ^ 2 ∧ ‖q.A z‖ ^ 2 + q.damp ^ 2 * ‖z‖ ^ 2 ≤ hi * ‖z‖ ^ 2) :
    let f : E → ℝ := fun x => ‖q.b - q.A x‖ ^ 2 + q.damp ^ 2 * ‖x‖ ^ 2
    ∃ res s, ∃ xs : List E, lsqrSolve (Vec.op q.A) (Vec.op q.B) q.n (.fin q.b) q.kw = .ok (res, s) ∧
      res.itn = xs.length ∧ res.x = (0 :: xs).getLast?.elim .nan Vec.fin ∧
      (q.storeIterates = true → res.iterates = (0 :: xs).map Vec.fin) ∧
      ∃ sol : E, (∀ y, f sol ≤ f y) ∧ (q.damp = 0 → MinimumNormLeastSquares q.A q.b sol) ∧
        ∀ (k : ℕ) (x : E), (0 :: xs)[k]? = some x →
        f x - f sol ≤ (2 * rate lo hi ^ k) ^ 2 * (‖q.b‖ ^ 2 - f sol) ∧
        lo * ‖x - sol‖ ^ 2 ≤ (2 * rate lo hi ^ k) ^ 2 * (‖q.b‖ ^ 2 - f sol) := by
  intro f
  obtain ⟨res, s, xs, hr, hi1, hx, hst, -, -, hb⟩ := C38_true_norms q hq
  refine ⟨res, s, xs, hr, hi1, by rw [hx, List.getLast?_eq_some_getLast (by simp)]; rfl, hst, ?_⟩
  set G : E →ₗ[ℝ] E := q.B ∘ₗ q.A + q.damp ^ 2 • LinearMap.id with hG
  have hGx : ∀ x, G x = q.B (q.A x) + q.damp ^ 2 • x := fun x => rfl
  have hsym : ∀ u v, ⟪G u, v⟫ = ⟪u, G v⟫ := normal_symm hq.adj (q.damp ^ 2)
  have hE : ∀ z, ⟪z, G z⟫ = ‖q.A z‖ ^ 2 + q.damp ^ 2 * ‖z‖ ^ 2 := by
    intro z
    rw [hGx, inner_add_right, real_inner_smul_right, ← hq.adj, real_inner_self_eq_norm_sq, real_inner_self_eq_norm_sq]
  have hW : ∀ w ∈ LinearMap.range q.B, G w ∈ LinearMap.range q.B := fun w hw =>
    Submodule.add_mem _ ⟨_, rfl⟩ (Submodule.smul_mem _ _ hw)
  have hsp : ∀ z ∈ LinearMap.range q.B, lo * ‖z‖ ^ 2 ≤ ⟪z, G z⟫ ∧ (⟪z, G z⟫ : ℝ) ≤ hi * ‖z‖ ^ 2 := fun z hz => by
    rw [hE]; exact hs z hz
  obtain ⟨⟨sol, hsolm, hsol⟩, hkry⟩ := exists_krylov_point_in hsym _ hW h0 h hsp (c := q.B q.b) ⟨_, rfl⟩
  have hf : ∀ x, f x = f sol + ⟪x - sol, G (x - sol)⟫ := by
    intro x
    have e1 : ∀ x, f x = ‖q.b‖ ^ 2 - 2 * ⟪x, q.B q.b⟫ + ⟪x, G x⟫ := by
      intro x
      simp only [f, hGx]
      rw [← real_inner_self_eq_norm_sq, inner_sub_left, inner_sub_right, inner_sub_right, inner_add_right, ← hq.adj, ← hq.adj,
        real_inner_smul_right, real_inner_self_eq_norm_sq, real_inner_self_eq_norm_sq, real_inner_self_eq_norm_sq,
        real_inner_comm (q.A x) q.b]
      ring
    have e2 : ⟪sol, G x⟫ = ⟪x, q.B q.b⟫ := by
      rw [← hsol, ← hsym sol x, real_inner_comm]
    rw [e1 x, e1 sol, map_sub, inner_sub_left, inner_sub_right, inner_sub_right, e2, hsol]
    ring
  have hnn : ∀ z, 0 ≤ ⟪z, G z⟫ := fun z => by rw [hE]; positivity
  have hf0 : ‖q.b‖ ^ 2 - f sol = ⟪sol, G sol⟫ := by
    have h1 := hf 0
    have h2 : f 0 = ‖q.b‖ ^ 2 := by simp [f]
    rw [h2, zero_sub, map_neg, inner_neg_neg] at h1
    linarith
  refine ⟨sol, fun y => by rw [hf y]; linarith [hnn (y - sol)], fun hd => ?_, fun k x hx => ?_⟩
  · refine minimumNorm_of_range hq.adj ?_ hsolm
    rw [map_sub, ← hsol, hGx, hd]; simp
  rw [hf0]
  have hmin : x ∈ krylov (q.B ∘ₗ q.A) (q.B q.b) k ∧ ∀ y ∈ krylov (q.B ∘ₗ q.A) (q.B q.b) k, f x ≤ f y := by
    cases k with
    | zero =>
      have hx : x = 0 := by simpa using hx.symm
      refine ⟨by rw [hx]; exact Submodule.zero_mem _, fun y hy => ?_⟩
      have hy : y = 0 := by simpa [krylov] using hy
      rw [hx, hy]
    | succ i =>
      rw [List.getElem?_cons_succ] at hx
      obtain ⟨hi', rfl⟩ := List.getElem?_eq_some_iff.1 hx
      exact hb i hi'
  obtain ⟨y, hy, -, -, hy2⟩ := hkry k
  have h1 := hmin.2 y (krylov_shift _ _ _ _ hy)
  have h2 := hy2 sol hsolm hsol
  have e3 : ⟪sol - y, G (sol - y)⟫ = ⟪y - sol, G (y - sol)⟫ := by
    rw [← neg_sub y sol, map_neg, inner_neg_neg]
  rw [e3] at h2
  rw [hf x, hf y] at h1
  have h3 : ⟪x - sol, G (x - sol)⟫ ≤ (2 * rate lo hi ^ k) ^ 2 * ⟪sol, G sol⟫ := by linarith
  exact ⟨by rw [hf x]; linarith,
    (hsp (x - sol) (Submodule.sub_mem _ (krylov_le_range _ _ hmin.1) hsolm)).1.trans h3⟩

/-- **C85, LSMR.** In exact arithmetic, without preconditioners, under the hypotheses of `C85_lsqr` on the operator: if `solve` returns (it
may raise `ZeroDivisionError`, see `C51_true_norms`), then there are iterates, starting with 0 and ending with the returned `x` (stored if
this is requested), such that the residual norm `|A'(b - Ax) - damp^2 x|` of the normal equations at the iterate `k` is at most
`2 ((sqrt(κ) - 1) / (sqrt(κ) + 1))^k` times the norm of `A'b`. -/
theorem C85_lsmr [FiniteDimensional ℝ E] (q : LsmrProblem E F) (hq : q.Valid) (selfX : Option (Vec E)) {lo hi : ℝ} (h0 : 0 < lo)
    (h : lo ≤ hi)
    (hs : ∀ z ∈ LinearMap.range q.B,
      lo * ‖z‖ ^ 2 ≤ ‖q.A z‖ ^ 2 + q.damp ^ 2 * ‖z‖ ^ 2 ∧ ‖q.A z‖ ^ 2 + q.damp ^ 2 * ‖z‖ ^ 2 ≤ hi * ‖z‖ ^ 2) :
    lsmrSolve (Vec.op q.A) (Vec.op q.B) q.m q.n (.fin q.b) q.kw selfX = .error .zeroDivision ∨
    ∃ res s, ∃ xs : List E, lsmrSolve (Vec.op q.A) (Vec.op q.B) q.m q.n (.fin q.b) q.kw selfX = .ok (res, s) ∧
      res.itn = xs.length ∧ res.x = (0 :: xs).getLast?.elim .nan Vec.fin ∧
      (q.storeIterates = true → res.iterates = (0 :: xs).map Vec.fin) ∧
      ∀ (k : ℕ) (x : E), (0 :: xs)[k]? = some x →
        ‖q.B (q.b - q.A x) - (q.damp * q.damp) • x‖ ≤ 2 * rate lo hi ^ k * ‖q.B q.b‖ := by
  rcases C51_true_norms q hq selfX with ⟨res, s, xs, hr, hi1, hx, hst, -, -, hb, -⟩ | ⟨he, -⟩
  · refine Or.inr ⟨res, s, xs, hr, hi1, by rw [hx, List.getLast?_eq_some_getLast (by simp)]; rfl, hst, fun k x hx => ?_⟩
    have hmin : ∀ y ∈ krylov (q.B ∘ₗ q.A) (q.B q.b) k,
        ‖q.B (q.b - q.A x) - (q.damp * q.damp) • x‖ ≤ ‖q.B (q.b - q.A y) - (q.damp * q.damp) • y‖ := by
      cases k with
      | zero =>
        intro y hy
        have hy : y = 0 := by simpa [krylov] using hy
        have hx : x = 0 := by simpa using hx.symm
        rw [hx, hy]
      | succ i =>
        intro y hy
        rw [List.getElem?_cons_succ] at hx
        obtain ⟨hi', rfl⟩ := List.getElem?_eq_some_iff.1 hx
        exact (hb i hi').2 y hy
    have hE : ∀ z, ⟪z, (q.B ∘ₗ q.A + q.damp ^ 2 • LinearMap.id : E →ₗ[ℝ] E) z⟫ = ‖q.A z‖ ^ 2 + q.damp ^ 2 * ‖z‖ ^ 2 := by
      intro z
      rw [LinearMap.add_apply, LinearMap.comp_apply, LinearMap.smul_apply, LinearMap.id_apply, inner_add_right,
        real_inner_smul_right, ← hq.adj, real_inner_self_eq_norm_sq, real_inner_self_eq_norm_sq]
    obtain ⟨-, hkry⟩ := exists_krylov_point_in (normal_symm hq.adj (q.damp ^ 2)) (LinearMap.range q.B)
      (fun w hw => Submodule.add_mem _ ⟨_, rfl⟩ (Submodule.smul_mem _ _ hw)) h0 h
      (fun z hz => by rw [hE]; exact hs z hz) (c := q.B q.b) ⟨_, rfl⟩
    obtain ⟨y, hy, -, hy1, -⟩ := hkry k
    refine (hmin y (krylov_shift _ _ _ _ hy)).trans ?_
    have e : q.B (q.b - q.A y) - (q.damp * q.damp) • y =
        q.B q.b - (q.B ∘ₗ q.A + q.damp ^ 2 • LinearMap.id : E →ₗ[ℝ] E) y := by
      rw [map_sub, LinearMap.add_apply, LinearMap.comp_apply, LinearMap.smul_apply, LinearMap.id_apply, sq]; abel
    rw [e]; exact hy1
  · exact Or.inl he

/-! ### The hypotheses are met -/

/-- a projection of the plane, times 1 on the first axis: the eigenvalue other than zero is 1 -/
theorem planeProj_spectrum : NonzeroSpectrumIn planeProj 1 1 := by
  intro z hz
  have e : planeProj z = z := Complex.ext rfl (planeProj_mem.1 hz).symm
  rw [e, real_inner_self_eq_norm_sq]
  constructor <;> linarith

/-- CG on the singular system `x₁ = 1` with the guess `(3, 2)` and `reltol = 1/1000` -/
example (k : ℕ) (hk : (Real.sqrt (1 / 1) + 1) / 2 * Real.log (2 * Real.sqrt (1 / 1) / (1 / 1000)) ≤ k) :
    (cgSolve (Vec.op planeProj) ({ A := planeProj, b := 1, guess := some ⟨3, 2⟩, abstol := 0, reltol := 1/1000 } :
      UnitProblem ℂ).opts 2 {} (.fin 1)
    (({ A := planeProj, b := 1, guess := some ⟨3, 2⟩, abstol := 0, reltol := 1/1000 } : UnitProblem ℂ).cgKw (some (k+1)) true false
      false)).1.converged = true :=
  (C85_cg { A := planeProj, b := 1, guess := some ⟨3, 2⟩, abstol := 0, reltol := 1/1000 } rfl planeProj_psd
    (planeProj_mem.2 (by simp)) one_pos le_rfl planeProj_spectrum 2 (some (k+1)) true false false le_rfl (by norm_num) k hk (by simp)).1

/-- MINRES on the same system -/
example : ∃ res products, minresSolve (Vec.op planeProj) (.fin (1 / 100)) 2 { residHistory := [] } (.fin 1)
      (⟨planeProj, 1, 0, false, none, 0, 0, false, 5⟩ : MinresProblem ℂ).kw = .ok (res, products) ∧
      (res.istop = -1 ∨ ∃ rs : List ℝ, res.residHistory = rs.map Fl.fin) := by
  have hB : (⟨planeProj, 1, 0, false, none, 0, 0, false, 5⟩ : MinresProblem ℂ).B = planeProj := by simp [MinresProblem.B]
  obtain ⟨res, products, h1, h2⟩ := C85_minres (⟨planeProj, 1, 0, false, none, 0, 0, false, 5⟩ : MinresProblem ℂ) planeProj_psd.1
    (1 / 100) (by norm_num) (lo := 1) (hi := 2) (by norm_num) (by norm_num) (by
      rw [hB]; intro z hz
      have : planeProj z = z := Complex.ext rfl (planeProj_mem.1 hz).symm
      rw [this]; constructor <;> linarith [norm_nonneg z]) (by simp) (by rw [hB]; exact planeProj_mem.2 (by simp)) 2
  refine ⟨res, products, h1, h2.imp_right fun ⟨_, _, _, rs, h, _⟩ => ⟨rs, h⟩⟩

/-- LSQR and LSMR on the inconsistent system `x₁ = 1, 0 = 1` -/
theorem planeProj_singular (z : ℂ) (hz : z ∈ LinearMap.range planeProj) :
    1 * ‖z‖ ^ 2 ≤ ‖planeProj z‖ ^ 2 + (0:ℝ) ^ 2 * ‖z‖ ^ 2 ∧ ‖planeProj z‖ ^ 2 + (0:ℝ) ^ 2 * ‖z‖ ^ 2 ≤ 4 * ‖z‖ ^ 2 := by
  have : planeProj z = z := Complex.ext rfl (planeProj_mem.1 hz).symm
  rw [this]
  constructor <;> nlinarith [sq_nonneg ‖z‖]

example : ∃ res s, ∃ xs : List ℂ, lsqrSolve (Vec.op planeProj) (Vec.op planeProj) 2 (.fin ⟨1, 1⟩)
      (⟨planeProj, planeProj, ⟨1, 1⟩, 2, 0, 0, 0, 0, 0, 0, false, false, 5⟩ : LsqrProblem ℂ ℂ).kw = .ok (res, s) ∧
    ∃ sol, MinimumNormLeastSquares planeProj ⟨1, 1⟩ sol ∧ ∀ (k : ℕ) (x : ℂ), (0 :: xs)[k]? = some x →
      1 * ‖x - sol‖ ^ 2 ≤ (2 * rate 1 4 ^ k) ^ 2 * (‖(⟨1, 1⟩ : ℂ)‖ ^ 2 - (‖⟨1, 1⟩ - planeProj sol‖ ^ 2 + (0:ℝ) ^ 2 * ‖sol‖ ^ 2)) := by
  obtain ⟨res, s, xs, h1, -, -, -, sol, -, h2, h3⟩ := C85_lsqr
    (⟨planeProj, planeProj, ⟨1, 1⟩, 2, 0, 0, 0, 0, 0, 0, false, false, 5⟩ : LsqrProblem ℂ ℂ) ⟨planeProj_psd.1, le_rfl, le_rfl, by decide⟩
    (lo := 1) (hi := 4) one_pos (by norm_num) planeProj_singular
  exact ⟨res, s, xs, h1, sol, h2 rfl, fun k x hx => (h3 k x hx).2⟩

example : lsmrSolve (Vec.op planeProj) (Vec.op planeProj) 2 2 (.fin ⟨1, 1⟩)
      (⟨planeProj, planeProj, ⟨1, 1⟩, 2, 2, 0, none, 0, 0, 0, 0, false, false, 5⟩ : LsmrProblem ℂ ℂ).kw none = .error .zeroDivision ∨
    ∃ res s, lsmrSolve (Vec.op planeProj) (Vec.op planeProj) 2 2 (.fin ⟨1, 1⟩)
      (⟨planeProj, planeProj, ⟨1, 1⟩, 2, 2, 0, none, 0, 0, 0, 0, false, false, 5⟩ : LsmrProblem ℂ ℂ).kw none = .ok (res, s) := by
  rcases C85_lsmr (⟨planeProj, planeProj, ⟨1, 1⟩, 2, 2, 0, none, 0, 0, 0, 0, false, false, 5⟩ : LsmrProblem ℂ ℂ)
    ⟨planeProj_psd.1, le_rfl, by decide⟩ none (lo := 1) (hi := 4) one_pos (by norm_num) planeProj_singular with h | ⟨res, s, xs, h, -⟩
  · exact Or.inl h
  · exact Or.inr ⟨res, s, h⟩

end Verif.Solver
