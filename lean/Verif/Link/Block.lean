import Verif.Link.Props
import Verif.Blkop.Props
import Verif.Blkop.DiagProps
import Verif.Solver.MinresPreconProps
import Mathlib.LinearAlgebra.Matrix.PosDef
import Mathlib.Data.Matrix.ColumnRowPartitioned

/-!
# C68: block operators and block preconditioners in the solvers

Real matrices made of blocks, vectors made of parts, and the solvers of the library on operators that
`BlockLinearOperator` and `BlockDiagonalLinearOperator` build from operators of any client program.
-/

namespace Verif.Link
open Verif.Linop Verif.Solver Verif.Blkop
open MinresMath (krylov)
open scoped Matrix

open Classical

/-! ### Specification: block matrices and vectors -/

/-- `numpy.concatenate((u, v))` -/
def cat {m n : ℕ} (u : RVec m) (v : RVec n) : RVec (m + n) := WithLp.toLp 2 (Fin.append u.ofLp v.ofLp)

/-- the matrix `[[A, B], [C, D]]` -/
def blk2 {m n k l : ℕ} (A : Matrix (Fin m) (Fin k) ℝ) (B : Matrix (Fin m) (Fin l) ℝ) (C : Matrix (Fin n) (Fin k) ℝ)
    (D : Matrix (Fin n) (Fin l) ℝ) : Matrix (Fin (m + n)) (Fin (k + l)) ℝ :=
  (Matrix.fromBlocks A B C D).submatrix finSumFinEquiv.symm finSumFinEquiv.symm

/-- the matrix `[[A], [C]]` -/
def stack {m n k : ℕ} (A : Matrix (Fin m) (Fin k) ℝ) (C : Matrix (Fin n) (Fin k) ℝ) : Matrix (Fin (m + n)) (Fin k) ℝ :=
  (Matrix.fromRows A C).submatrix finSumFinEquiv.symm id

theorem append_elim {m n : ℕ} (u : Fin m → ℝ) (v : Fin n → ℝ) : Fin.append u v ∘ finSumFinEquiv = Sum.elim u v := by
  funext i; cases i <;> simp

theorem cat_surj {m n : ℕ} (x : RVec (m + n)) : ∃ u v, x = cat u v :=
  ⟨WithLp.toLp 2 fun i => x.ofLp (Fin.castAdd n i), WithLp.toLp 2 fun i => x.ofLp (Fin.natAdd m i), by
    ext i; simp only [cat]; refine Fin.addCases (fun i => ?_) (fun i => ?_) i <;> simp⟩

theorem cat_inj {m n : ℕ} {u u' : RVec m} {v v' : RVec n} (h : cat u v = cat u' v') : u = u' ∧ v = v' := by
  constructor
  · ext i; have := congrArg (fun w => w.ofLp (Fin.castAdd n i)) h; simpa [cat] using this
  · ext i; have := congrArg (fun w => w.ofLp (Fin.natAdd m i)) h; simpa [cat] using this

theorem lin_blk2 {m n k l : ℕ} (A : Matrix (Fin m) (Fin k) ℝ) (B : Matrix (Fin m) (Fin l) ℝ) (C : Matrix (Fin n) (Fin k) ℝ)
    (D : Matrix (Fin n) (Fin l) ℝ) (u : RVec k) (v : RVec l) :
    lin (blk2 A B C D) (cat u v) = cat (lin A u + lin B v) (lin C u + lin D v) := by
  have h : (Matrix.fromBlocks A B C D).submatrix finSumFinEquiv.symm finSumFinEquiv.symm *ᵥ Fin.append u.ofLp v.ofLp =
      Fin.append (A *ᵥ u.ofLp + B *ᵥ v.ofLp) (C *ᵥ u.ofLp + D *ᵥ v.ofLp) := by
    rw [Matrix.submatrix_mulVec_equiv, Equiv.symm_symm, append_elim, Matrix.fromBlocks_mulVec]
    funext i
    refine Fin.addCases (fun i => ?_) (fun i => ?_) i <;> simp
  exact congrArg (WithLp.toLp 2) h

theorem lin_stack {m n k : ℕ} (A : Matrix (Fin m) (Fin k) ℝ) (C : Matrix (Fin n) (Fin k) ℝ) (u : RVec k) :
    lin (stack A C) u = cat (lin A u) (lin C u) := by
  have h : (Matrix.fromRows A C).submatrix finSumFinEquiv.symm id *ᵥ u.ofLp = Fin.append (A *ᵥ u.ofLp) (C *ᵥ u.ofLp) := by
    funext i
    refine Fin.addCases (fun i => ?_) (fun i => ?_) i <;> simp [Matrix.mulVec, dotProduct]
  exact congrArg (WithLp.toLp 2) h

theorem inner_cat {m n : ℕ} (u u' : RVec m) (v v' : RVec n) :
    inner ℝ (cat u v) (cat u' v') = inner ℝ u u' + inner ℝ v v' := by
  simp only [PiLp.inner_apply, cat, Fin.sum_univ_add, Fin.append_left, Fin.append_right]

theorem norm_cat {m n : ℕ} (u : RVec m) (v : RVec n) : ‖cat u v‖ ^ 2 = ‖u‖ ^ 2 + ‖v‖ ^ 2 := by
  rw [← real_inner_self_eq_norm_sq, ← real_inner_self_eq_norm_sq, ← real_inner_self_eq_norm_sq, inner_cat]

theorem stack_T {m n k : ℕ} (A : Matrix (Fin m) (Fin k) ℝ) (C : Matrix (Fin n) (Fin k) ℝ) (u : RVec m) (v : RVec n) :
    lin (stack A C).transpose (cat u v) = lin A.transpose u + lin C.transpose v := by
  refine ext_inner_left ℝ fun w => ?_
  rw [← lin_adj, lin_stack, inner_cat, inner_add_right, lin_adj, lin_adj]

theorem blk2_T {m n k l : ℕ} (A : Matrix (Fin m) (Fin k) ℝ) (B : Matrix (Fin m) (Fin l) ℝ) (C : Matrix (Fin n) (Fin k) ℝ)
    (D : Matrix (Fin n) (Fin l) ℝ) : (blk2 A B C D).transpose = blk2 A.transpose C.transpose B.transpose D.transpose := by
  simp [blk2, Matrix.fromBlocks_transpose]

/-! ### The matrices of the operator layer -/

theorem join_real {a b : DKind} (ha : a ≠ .complex) (hb : b ≠ .complex) : a.join b ≠ .complex := by
  cases a <;> cases b <;> simp_all [DKind.join]

theorem foldl_join_real : ∀ (l : List DKind) (a : DKind), a ≠ .complex → (∀ b ∈ l, b ≠ .complex) → l.foldl DKind.join a ≠ .complex
  | [], _, h, _ => h
  | b :: l, a, h, hl => foldl_join_real l _ (join_real h (hl b (by simp))) fun c hc => hl c (by simp [hc])

theorem blockKind_real {nr nc : ℕ} {M : ℕ → ℕ → Mat ℂ} (h : ∀ i < nr, ∀ j < nc, (M i j).kind ≠ .complex) :
    blockKind nr nc M ≠ .complex := by
  refine foldl_join_real _ _ (by simp) fun b hb => ?_
  simp only [List.mem_flatMap, List.mem_map, List.mem_range] at hb
  obtain ⟨i, hi, j, hj, rfl⟩ := hb
  exact h i hi j hj

/-- the blocks of a block column of two -/
def col2 (A C : Mat ℂ) : ℕ → ℕ → Mat ℂ := fun i _ => if i = 0 then A else C

/-- the blocks of a two by two block matrix -/
def grid2 (A B C D : Mat ℂ) : ℕ → ℕ → Mat ℂ := fun i j => if i = 0 then (if j = 0 then A else B) else (if j = 0 then C else D)

theorem locate2 {m n : ℕ} (i : Fin (m + n)) :
    locate [m, n] i = if (i : ℕ) < m then (0, (i : ℕ)) else (1, (i : ℕ) - m) := by
  unfold locate
  split
  · rfl
  · have : (i : ℕ) - m < n := by have := i.2; omega
    simp [locate, this]

theorem locate1 {m : ℕ} (i : Fin m) : locate [m] i = (0, (i : ℕ)) := by simp [locate]

theorem isReal_stack {m n k : ℕ} {A C : Mat ℂ} {MA : Matrix (Fin m) (Fin k) ℝ} {MC : Matrix (Fin n) (Fin k) ℝ} (hA : IsReal A MA)
    (hC : IsReal C MC) : IsReal (blockMat [m, n] [k] (col2 A C)) (stack MA MC) := by
  refine ⟨by simp [blockMat, blockMatK], by simp [blockMat, blockMatK], ?_, fun i j => ?_⟩
  · refine blockKind_real fun i hi j hj => ?_
    unfold col2; split
    · exact hA.kind
    · exact hC.kind
  · simp only [blockMat, blockMatK, locate1, locate2]
    refine Fin.addCases (fun i => ?_) (fun i => ?_) i
    · have : ((Fin.castAdd n i : Fin (m + n)) : ℕ) < m := by simp
      simp only [if_pos this]
      simp only [col2, if_true, stack, Matrix.submatrix_apply, finSumFinEquiv_symm_apply_castAdd, Matrix.fromRows_apply_inl, id]
      exact hA.entry i j
    · have : ¬ ((Fin.natAdd m i : Fin (m + n)) : ℕ) < m := by simp
      simp only [if_neg this]
      simp only [col2, one_ne_zero, if_false, stack, Matrix.submatrix_apply, finSumFinEquiv_symm_apply_natAdd,
        Matrix.fromRows_apply_inr, id, Fin.val_natAdd, Nat.add_sub_cancel_left]
      exact hC.entry i j

theorem isReal_blk2 {m n k l : ℕ} {A B C D : Mat ℂ} {MA : Matrix (Fin m) (Fin k) ℝ} {MB : Matrix (Fin m) (Fin l) ℝ}
    {MC : Matrix (Fin n) (Fin k) ℝ} {MD : Matrix (Fin n) (Fin l) ℝ} {M : ℕ → ℕ → Mat ℂ} (hM : ∀ i < 2, ∀ j < 2, M i j = grid2 A B C D i j)
    (hA : IsReal A MA) (hB : IsReal B MB) (hC : IsReal C MC) (hD : IsReal D MD) :
    IsReal (blockMat [m, n] [k, l] M) (blk2 MA MB MC MD) := by
  have h00 : M 0 0 = A := hM 0 (by norm_num) 0 (by norm_num)
  have h01 : M 0 1 = B := hM 0 (by norm_num) 1 (by norm_num)
  have h10 : M 1 0 = C := hM 1 (by norm_num) 0 (by norm_num)
  have h11 : M 1 1 = D := hM 1 (by norm_num) 1 (by norm_num)
  refine ⟨by simp [blockMat, blockMatK], by simp [blockMat, blockMatK], ?_, fun i j => ?_⟩
  · refine blockKind_real fun i hi j hj => ?_
    rw [hM i (by simpa using hi) j (by simpa using hj)]
    unfold grid2; split <;> split
    · exact hA.kind
    · exact hB.kind
    · exact hC.kind
    · exact hD.kind
  · simp only [blockMat, blockMatK, locate2]
    refine Fin.addCases (fun i => ?_) (fun i => ?_) i <;> refine Fin.addCases (fun j => ?_) (fun j => ?_) j
    · have e : ((Fin.castAdd n i : Fin (m + n)) : ℕ) < m := by simp
      have f : ((Fin.castAdd l j : Fin (k + l)) : ℕ) < k := by simp
      simp only [if_pos e, if_pos f, h00]
      simpa [blk2] using hA.entry i j
    · have e : ((Fin.castAdd n i : Fin (m + n)) : ℕ) < m := by simp
      have f : ¬ ((Fin.natAdd k j : Fin (k + l)) : ℕ) < k := by simp
      simp only [if_pos e, if_neg f, h01]
      simpa [blk2] using hB.entry i j
    · have e : ¬ ((Fin.natAdd m i : Fin (m + n)) : ℕ) < m := by simp
      have f : ((Fin.castAdd l j : Fin (k + l)) : ℕ) < k := by simp
      simp only [if_neg e, if_pos f, h10]
      simpa [blk2] using hC.entry i j
    · have e : ¬ ((Fin.natAdd m i : Fin (m + n)) : ℕ) < m := by simp
      have f : ¬ ((Fin.natAdd k j : Fin (k + l)) : ℕ) < k := by simp
      simp only [if_neg e, if_neg f, h11]
      simpa [blk2] using hD.entry i j

theorem IsReal.symm {n : ℕ} {A : Mat ℂ} {M : Matrix (Fin n) (Fin n) ℝ} (h : IsReal A M) (hA : A.Eqv A.T) : M.transpose = M := by
  ext i j
  have h1 := hA.entry j (by rw [h.rows]; exact j.2) i (by rw [h.cols]; exact i.2)
  have h2 := h.entry j i
  have h3 := h.T.entry j i
  rw [← h1, h2] at h3
  exact_mod_cast h3

/-! ### Regularization by an extra block row -/

variable {env : List Nat} {h : Heap ℂ} {mats : List (Mat ℂ)}

theorem getElem?_snoc {α : Type} {l : List α} {i : ℕ} {a b : α} (hi : l[i]? = some a) : (l ++ [b])[i]? = some a := by
  rw [List.getElem?_append_left (List.getElem?_eq_some_iff.1 hi).1]; exact hi

theorem normal_unique {m n : ℕ} (M : Matrix (Fin m) (Fin n) ℝ) {d : ℝ} (hd : d ≠ 0) {b : RVec m} {x y : RVec n}
    (hx : lin M.transpose (b - lin M x) = (d * d) • x) (hy : lin M.transpose (b - lin M y) = (d * d) • y) : x = y := by
  have h0 : lin M.transpose (lin M (x - y)) + (d * d) • (x - y) = 0 := by
    rw [map_sub, smul_sub, ← hx, ← hy, map_sub, map_sub, map_sub]; abel
  have h1 : ‖lin M (x - y)‖ ^ 2 + (d * d) * ‖x - y‖ ^ 2 = 0 := by
    have := congrArg (inner ℝ (x - y)) h0
    rwa [inner_add_right, ← lin_adj, real_inner_self_eq_norm_sq, inner_smul_right, real_inner_self_eq_norm_sq,
      inner_zero_right] at this
  have h2 : ‖x - y‖ ^ 2 = 0 := by
    have : 0 < d * d := mul_self_pos.2 hd
    nlinarith [sq_nonneg ‖lin M (x - y)‖, sq_nonneg ‖x - y‖]
  exact sub_eq_zero.1 (norm_eq_zero.1 (pow_eq_zero_iff (by norm_num) |>.1 h2))

/-- the keywords of `lsqr.solve` used below: zero tolerances, default limit -/
def lsqrKw {U V : Type} (damp conlim : ℝ) (storeResids storeIterates : Bool) (window : ℕ) : LsqrKw Fl U V :=
  { itnlim := 0, damp := .fin damp, atol := .fin 0, btol := .fin 0, conlim := .fin conlim, etol := .fin 0, inf := .nan,
    storeResids := storeResids, storeIterates := storeIterates, window := window }

/-- **C68, regularization.** Let `A` be any real operator and `D` an operator that is `d I`.  LSQR on the block operator
`BlockLinearOperator([[A], [D]])` with the right-hand side `(b, 0)` and LSQR on `A` with `damp = d` and the right-hand side `b` (zero
tolerances, default limits) both succeed and return the same `x`, the minimizer of `|b - A x|^2 + d^2 |x|^2`. -/
theorem C68_regularized (R : ReachTotal env h mats) {i j rA rD : ℕ} {A D : Mat ℂ} (hiA : env[i]? = some rA) (hmA : mats[i]? = some A)
    (hiD : env[j]? = some rD) (hmD : mats[j]? = some D) {m n : ℕ} (hn : 0 < n) {M : Matrix (Fin m) (Fin n) ℝ} {d : ℝ} (hd : d ≠ 0)
    (hA : IsReal A M) (hD : IsReal D (d • (1 : Matrix (Fin n) (Fin n) ℝ))) (b : RVec m) (hb : M.transpose.mulVec b.ofLp ≠ 0)
    (conlim : ℝ) (storeResids storeIterates : Bool) (window : ℕ) (hw : window ≠ 0) :
    ∃ op, mkBlock h [[some rA], [some rD]] false false = .ok (op, [[some rA], [some rD]]) ∧
      let K := (op.objs h).1
      let h' := (op.objs h).2
      ReachTotal (env ++ [K]) h' (mats ++ [blockMat [m, n] [n] (col2 A D)]) ∧
      ∃ tA tK, getT h' rA = some tA ∧ getT h' K = some tK ∧ ∀ fuel, h'.length ≤ fuel →
        ∃ res s res' s' x,
          lsqrSolve (apply h' fuel rA n m) (apply h' fuel tA m n) n (.fin b) (lsqrKw d conlim storeResids storeIterates window) =
            .ok (res, s) ∧
          lsqrSolve (apply h' fuel K n (m + n)) (apply h' fuel tK (m + n) n) n (.fin (cat b 0))
            (lsqrKw 0 conlim storeResids storeIterates window) = .ok (res', s') ∧
          res.optimal = true ∧ res'.optimal = true ∧ res.x = .fin x ∧ res'.x = .fin x ∧
          ∀ z, ‖b - lin M x‖ ^ 2 + d ^ 2 * ‖x‖ ^ 2 ≤ ‖b - lin M z‖ ^ 2 + d ^ 2 * ‖z‖ ^ 2 := by
  have g : BlockGrid env mats [[some rA], [some rD]] [m, n] [n] (col2 A D) := by
    refine ⟨rfl, by simp, by simp, fun i hi j hj => ?_, fun i hi j hj => ?_, fun i hi j hj => ?_⟩
    all_goals
      have hi : i < 2 := hi
      have hj : j < 1 := hj
      obtain rfl : j = 0 := by omega
      interval_cases i
    · exact ⟨_, rA, hiA, hmA, rfl⟩
    · exact ⟨_, rD, hiD, hmD, rfl⟩
    · exact hA.rows
    · exact hD.rows
    · exact hA.cols
    · exact hD.cols
  obtain ⟨op, h1, -, R'⟩ := C16_block R g
  have hK := isReal_stack hA hD
  have eK : (env ++ [(op.objs h).1])[env.length]? = some (op.objs h).1 := by simp
  have mK : (mats ++ [blockMat [m, n] [n] (col2 A D)])[env.length]? = some (blockMat [m, n] [n] (col2 A D)) := by
    simp [R.reach.len]
  have hb0 : (stack M (d • (1 : Matrix (Fin n) (Fin n) ℝ))).transpose.mulVec (cat b 0).ofLp ≠ 0 := by
    intro h0
    have h2 : lin (stack M (d • (1 : Matrix (Fin n) (Fin n) ℝ))).transpose (cat b 0) = 0 := congrArg (WithLp.toLp 2) h0
    rw [stack_T, map_zero, add_zero] at h2
    exact hb (congrArg WithLp.ofLp h2)
  obtain ⟨tA, htA, -⟩ := C64_operator R' (getElem?_snoc hiA) (getElem?_snoc hmA) hA
  obtain ⟨tK, htK, -⟩ := C64_operator R' eK mK hK
  refine ⟨op, h1, R', tA, tK, htA, htK, fun fuel hf => ?_⟩
  obtain ⟨t, ht, res, s, x, e1, e2, e3, e4⟩ := C64_lsqr R' (getElem?_snoc hiA) (getElem?_snoc hmA) hn hA hf b hb d conlim storeResids
    storeIterates window hw
  obtain ⟨t', ht', res', s', x', f1, f2, f3, f4⟩ := C64_lsqr R' eK mK hn hK hf (cat b 0) hb0 0 conlim storeResids
    storeIterates window hw
  obtain rfl : t = tA := by rw [ht] at htA; exact Option.some.inj htA
  obtain rfl : t' = tK := by rw [ht'] at htK; exact Option.some.inj htK
  have n1 : lin M.transpose (b - lin M x) = (d * d) • x := congrArg (WithLp.toLp 2) e4
  have n2 : lin M.transpose (b - lin M x') = (d * d) • x' := by
    have f5 : lin (stack M (d • (1 : Matrix (Fin n) (Fin n) ℝ))).transpose
        (cat b 0 - lin (stack M (d • (1 : Matrix (Fin n) (Fin n) ℝ))) x') = (0 * 0 : ℝ) • x' := congrArg (WithLp.toLp 2) f4
    have l1 : ∀ z, lin (d • (1 : Matrix (Fin n) (Fin n) ℝ)) z = d • z := fun z => by
      rw [lin_apply, Matrix.smul_mulVec, Matrix.one_mulVec]; rfl
    have l2 : ∀ z, lin (d • (1 : Matrix (Fin n) (Fin n) ℝ)).transpose z = d • z := fun z => by
      rw [Matrix.transpose_smul, Matrix.transpose_one, l1]
    rw [lin_stack, l1, map_sub, stack_T, stack_T, map_zero, l2, smul_smul, add_zero, mul_zero, zero_smul, ← sub_sub] at f5
    rw [map_sub]
    exact sub_eq_zero.1 f5
  obtain rfl := normal_unique M hd n1 n2
  refine ⟨res, s, res', s', x, e1, f1, e2, f2, e3, f3, fun z => ?_⟩
  have k1 : b - lin M z = (b - lin M x) - lin M (z - x) := by rw [map_sub]; abel
  have k2 : inner ℝ (b - lin M x) (lin M (z - x)) = (d * d) * inner ℝ x (z - x) := by
    rw [real_inner_comm, lin_adj, n1, inner_smul_right, real_inner_comm]
  have k3 : ‖z‖ ^ 2 = ‖x‖ ^ 2 + 2 * inner ℝ x (z - x) + ‖z - x‖ ^ 2 := by
    rw [← norm_add_sq_real]; congr 2; abel
  rw [k1, norm_sub_sq_real (b - lin M x), k2, k3]
  nlinarith [sq_nonneg ‖lin M (z - x)‖, mul_nonneg (sq_nonneg d) (sq_nonneg ‖z - x‖)]

/-! ### Symmetric two by two systems -/

/-- the matrix `[[A, B], [B', -C]]` -/
def saddle {m n : ℕ} (A : Matrix (Fin m) (Fin m) ℝ) (B : Matrix (Fin m) (Fin n) ℝ) (C : Matrix (Fin n) (Fin n) ℝ) :
    Matrix (Fin (m + n)) (Fin (m + n)) ℝ := blk2 A B B.transpose (-C)

theorem lin_neg {m n : ℕ} (C : Matrix (Fin m) (Fin n) ℝ) (v : RVec n) : lin (-C) v = -lin C v := by
  rw [lin_apply, Matrix.neg_mulVec]; rfl

theorem lin_saddle {m n : ℕ} (A : Matrix (Fin m) (Fin m) ℝ) (B : Matrix (Fin m) (Fin n) ℝ) (C : Matrix (Fin n) (Fin n) ℝ)
    (u : RVec m) (v : RVec n) : lin (saddle A B C) (cat u v) = cat (lin A u + lin B v) (lin B.transpose u - lin C v) := by
  rw [saddle, lin_blk2, lin_neg, sub_eq_add_neg]

/-- a quasi-definite matrix is as far from singular as its diagonal blocks, whatever `B` is -/
theorem saddle_low {m n : ℕ} {A : Matrix (Fin m) (Fin m) ℝ} {B : Matrix (Fin m) (Fin n) ℝ} {C : Matrix (Fin n) (Fin n) ℝ} {α : ℝ}
    (hA : ∀ u, α * ‖u‖ ^ 2 ≤ inner ℝ u (lin A u)) (hC : ∀ v, α * ‖v‖ ^ 2 ≤ inner ℝ v (lin C v)) (z : RVec (m + n)) :
    α * ‖z‖ ≤ ‖lin (saddle A B C) z‖ := by
  obtain ⟨u, v, rfl⟩ := cat_surj z
  have h1 : inner ℝ (cat u (-v)) (lin (saddle A B C) (cat u v)) = inner ℝ u (lin A u) + inner ℝ v (lin C v) := by
    rw [lin_saddle, inner_cat, inner_add_right, inner_sub_right, inner_neg_left, inner_neg_left, real_inner_comm (lin B v) u, lin_adj]
    ring
  have h2 : ‖cat u (-v)‖ = ‖cat u v‖ := by
    have : ‖cat u (-v)‖ ^ 2 = ‖cat u v‖ ^ 2 := by rw [norm_cat, norm_cat, norm_neg]
    exact (pow_left_inj₀ (norm_nonneg _) (norm_nonneg _) (by norm_num)).1 this
  have h3 := real_inner_le_norm (cat u (-v)) (lin (saddle A B C) (cat u v))
  rw [h1, h2] at h3
  have h4 : α * ‖cat u v‖ ^ 2 ≤ ‖cat u v‖ * ‖lin (saddle A B C) (cat u v)‖ := by
    rw [norm_cat]; linarith [hA u, hC v]
  rcases (norm_nonneg (cat u v)).eq_or_lt with h0 | h0
  · rw [← h0, mul_zero]; exact norm_nonneg _
  · have : (α * ‖cat u v‖) * ‖cat u v‖ ≤ ‖lin (saddle A B C) (cat u v)‖ * ‖cat u v‖ := by nlinarith
    exact le_of_mul_le_mul_right this h0

/-- **C68, quasi-definite systems.** From operators `A`, `B`, `E` of any program, `A` and `E` flagged symmetric, the call
`BlockLinearOperator([[A, B], [E]], symmetric=True)` builds the operator of the system `A u + B v = f`, `B'u - C v = g`, where
`E = -C`, and `A` and `C` are positive definite with eigenvalues at least `α`.
LSQR on it (zero tolerances) returns the solution `(u, v)`.  MINRES on it (`α` not below the machine precision, no shift) converges
within `m + n` iterations or stops with code -1; a finite result has the smallest residual in its Krylov space and an error of at
most the residual norm divided by `α`, which is at most the reported norm divided by `α`. -/
theorem C68_quasidefinite (R : ReachTotal env h mats) {i j l rA rB rE : ℕ} {A B E : Mat ℂ} (hiA : env[i]? = some rA)
    (hmA : mats[i]? = some A) (hiB : env[j]? = some rB) (hmB : mats[j]? = some B) (hiE : env[l]? = some rE) (hmE : mats[l]? = some E)
    {m n : ℕ} {MA : Matrix (Fin m) (Fin m) ℝ} {MB : Matrix (Fin m) (Fin n) ℝ} {MC : Matrix (Fin n) (Fin n) ℝ} (hA : IsReal A MA)
    (hB : IsReal B MB) (hE : IsReal E (-MC)) {oA oE : Obj ℂ} (hoA : h[rA]? = some oA) (hsA : oA.symmetric = true)
    (hoE : h[rE]? = some oE) (hsE : oE.symmetric = true) {α : ℝ} (hα : 0 < α) (lowA : ∀ u, α * ‖u‖ ^ 2 ≤ inner ℝ u (lin MA u))
    (lowC : ∀ v, α * ‖v‖ ^ 2 ≤ inner ℝ v (lin MC v)) :
    ∃ op G, mkBlock h [[some rA, some rB], [some rE]] true false = .ok (op, G) ∧
      let K := (op.objs h).1
      let h' := (op.objs h).2
      (∃ mK, IsReal mK (saddle MA MB MC) ∧ ReachTotal (env ++ [K]) h' (mats ++ [mK])) ∧
      ∀ fuel, h'.length ≤ fuel → ∀ (f : RVec m) (g : RVec n), cat f g ≠ 0 →
        (∃ t, getT h' K = some t ∧ ∀ (conlim : ℝ) (storeResids storeIterates : Bool) (window : ℕ), window ≠ 0 → ∃ res s u v,
          lsqrSolve (apply h' fuel K (m + n) (m + n)) (apply h' fuel t (m + n) (m + n)) (m + n) (.fin (cat f g))
            (lsqrKw 0 conlim storeResids storeIterates window) = .ok (res, s) ∧
          res.optimal = true ∧ res.x = .fin (cat u v) ∧ lin MA u + lin MB v = f ∧ lin MB.transpose u - lin MC v = g) ∧
        ∀ (ε rtol etol : ℝ) (check storeIterates : Bool) (itnlim : Option ℕ) (window : ℕ) (self : MinresObj Fl (Vec (RVec (m + n)))),
          0 < ε → ε ≤ α → 0 ≤ rtol → (∀ k, itnlim = some k → m + n ≤ k) → window ≠ 0 →
          ∃ res products,
            minresSolve (apply h' fuel K (m + n) (m + n)) (.fin ε) (m + n) self (.fin (cat f g))
              ({ A := lin (saddle MA MB MC), b := cat f g, shift := 0, check := check, itnlim := itnlim, rtol := rtol, etol := etol,
                 storeIterates := storeIterates, window := window } : MinresProblem (RVec (m + n))).kw = .ok (res, products) ∧
            (res.istop = -1 ∨ res.converged = true ∧ products.length ≤ m + n) ∧
            ∀ x, res.x = .fin x →
              (∀ z ∈ krylov (lin (saddle MA MB MC)) (cat f g) products.length,
                ‖cat f g - lin (saddle MA MB MC) x‖ ≤ ‖cat f g - lin (saddle MA MB MC) z‖) ∧
              (products ≠ [] → res.rnorm = .fin ‖cat f g - lin (saddle MA MB MC) x‖) ∧
              ∀ u v, lin MA u + lin MB v = f → lin MB.transpose u - lin MC v = g →
                ‖x - cat u v‖ ≤ ‖cat f g - lin (saddle MA MB MC) x‖ / α := by
  have g : UpperGrid env h mats true false [[some rA, some rB], [some rE]] [m, n] (grid2 A B A E) := by
    refine ⟨rfl, ?_, by simp, fun i j hij hj => ?_, fun i hi => ?_, fun i j hij hj => ?_, fun i j hij hj => ?_⟩
    · intro i row hi
      match i, hi with
      | 0, hi => simp at hi; subst hi; rfl
      | 1, hi => simp at hi; subst hi; rfl
      | i + 2, hi => simp at hi
    · have hj : j < 2 := hj
      interval_cases j <;> interval_cases i
      · exact ⟨_, rA, hiA, hmA, rfl⟩
      · exact ⟨_, rB, hiB, hmB, rfl⟩
      · exact ⟨_, rE, hiE, hmE, rfl⟩
    · have hi : i < 2 := hi
      interval_cases i
      · exact ⟨rA, oA, rfl, hoA, fun _ => hsA, by simp⟩
      · exact ⟨rE, oE, rfl, hoE, fun _ => hsE, by simp⟩
    · have hj : j < 2 := hj
      interval_cases j <;> interval_cases i
      · exact hA.rows
      · exact hB.rows
      · exact hE.rows
    · have hj : j < 2 := hj
      interval_cases j <;> interval_cases i
      · exact hA.cols
      · exact hB.cols
      · exact hE.cols
  obtain ⟨op, G, h1, -, h2, -, R'⟩ := C17_upper_partial R g (Or.inl rfl) (by simp)
  simp only [if_true] at h2 R'
  have hK : IsReal (blockMat [m, n] [m, n] (mirror Mat.T (grid2 A B A E))) (saddle MA MB MC) := by
    refine isReal_blk2 (A := A) (B := B) (C := B.T) (D := E) (fun i hi j hj => ?_) hA hB (hB.T) hE
    interval_cases i <;> interval_cases j <;> rfl
  generalize blockMat [m, n] [m, n] (mirror Mat.T (grid2 A B A E)) = mK at h2 R' hK
  have hS : (saddle MA MB MC).transpose = saddle MA MB MC := hK.symm (h2 trivial)
  have low : ∀ z, α * ‖z‖ ≤ ‖lin (saddle MA MB MC) z‖ := saddle_low lowA lowC
  have eK : (env ++ [(op.objs h).1])[env.length]? = some (op.objs h).1 := by simp
  have mK' : (mats ++ [mK])[env.length]? = some mK := by simp [R.reach.len]
  refine ⟨op, G, h1, ⟨mK, hK, R'⟩, fun fuel hf f g hfg => ⟨?_, ?_⟩⟩
  · obtain ⟨t, ht, -⟩ := C64_operator R' eK mK' hK
    refine ⟨t, ht, fun conlim storeResids storeIterates window hw => ?_⟩
    have inj : ∀ z, lin (saddle MA MB MC) z = 0 → z = 0 := fun z hz => by
      have := low z
      rw [hz, norm_zero] at this
      exact norm_le_zero_iff.1 (by nlinarith [norm_nonneg z])
    have hb : (saddle MA MB MC).transpose.mulVec (cat f g).ofLp ≠ 0 := by
      rw [hS]
      exact fun h0 => hfg (inj _ (congrArg (WithLp.toLp 2) h0))
    have hN : 0 < m + n := by
      rcases Nat.eq_zero_or_pos (m + n) with h0 | h0
      · refine absurd ?_ hfg
        ext i
        exact absurd i.2 (by omega)
      · exact h0
    obtain ⟨t', ht', res, s, x, e1, e2, e3, e4⟩ := C64_lsqr R' eK mK' hN hK hf (cat f g) hb 0 conlim storeResids storeIterates window hw
    obtain rfl : t' = t := by rw [ht] at ht'; exact (Option.some.inj ht').symm
    obtain ⟨u, v, rfl⟩ := cat_surj x
    have e5 : lin (saddle MA MB MC) (cat f g - lin (saddle MA MB MC) (cat u v)) = (0 * 0 : ℝ) • cat u v := by
      rw [hS] at e4; exact congrArg (WithLp.toLp 2) e4
    rw [mul_zero, zero_smul] at e5
    have e6 := sub_eq_zero.1 (inj _ e5)
    rw [lin_saddle] at e6
    obtain ⟨e7, e8⟩ := cat_inj e6
    exact ⟨res, s, u, v, e1, e2, e3, e7.symm, e8.symm⟩
  · intro ε rtol etol check storeIterates itnlim window self hε hεα hrt hlim hw
    have hop := (api_ops R' eK mK' hK hf).1
    have hfr : Module.finrank ℝ (RVec (m + n)) = m + n := finrank_euclideanSpace_fin
    have hlow : ∀ z, ε * ‖z‖ ≤ ‖lin (saddle MA MB MC) z - (0 : ℝ) • z‖ := fun z => by
      rw [zero_smul, sub_zero]
      exact (mul_le_mul_of_nonneg_right hεα (norm_nonneg z)).trans (low z)
    let q : MinresProblem (RVec (m + n)) :=
      { A := lin (saddle MA MB MC), b := cat f g, shift := 0, check := check, itnlim := itnlim, rtol := rtol, etol := etol,
        storeIterates := storeIterates, window := window }
    have hq : ∀ u v, inner ℝ (q.A u) v = inner ℝ u (q.A v) := fun u v => by
      change inner ℝ (lin _ u) v = inner ℝ u (lin _ v)
      rw [lin_adj, hS]
    obtain ⟨res, products, e1, e2⟩ := C34_converges_partial q hq ε hε hlow hw hrt hfg (by rw [hfr]; exact hlim) self
    obtain ⟨res', products', e3, -, e4⟩ := C35_residual_partial q hq ε hε hlow hw (m + n) self
    rw [hfr] at e1 e2
    rw [e1] at e3
    cases e3
    refine ⟨res, products, by rw [hop]; exact e1, e2, fun x hx => ?_⟩
    obtain ⟨xs, f1, f2, -, -, f3, -, f4⟩ := e4 x hx
    have f5 := (f4 products.length x (by rw [← f2, List.getLast?_eq_getElem?]; simp [f1])).2
    have z1 : lin (saddle MA MB MC) - (0 : ℝ) • LinearMap.id = lin (saddle MA MB MC) := by rw [zero_smul, sub_zero]
    simp only [q, z1, zero_smul, sub_zero] at f3 f5
    refine ⟨f5, f3, fun u v hu hv => ?_⟩
    have hs : lin (saddle MA MB MC) (cat u v) = cat f g := by rw [lin_saddle, hu, hv]
    rw [le_div_iff₀ hα, mul_comm, ← hs, ← map_sub, ← norm_sub_rev (cat u v)]
    exact low _

/-! ### Block diagonal operators -/

/-- the order of a block diagonal matrix -/
def size : List (Σ n : ℕ, Matrix (Fin n) (Fin n) ℝ) → ℕ
  | [] => 0
  | p :: l => p.1 + size l

/-- the block diagonal matrix with the given square blocks -/
def blockDiag : (l : List (Σ n : ℕ, Matrix (Fin n) (Fin n) ℝ)) → Matrix (Fin (size l)) (Fin (size l)) ℝ
  | [] => 0
  | p :: l => blk2 p.2 0 0 (blockDiag l)

/-- `x[a:a+n]` -/
def slice {N : ℕ} (a n : ℕ) (x : RVec N) : RVec n := WithLp.toLp 2 fun i => if h : a + i < N then x.ofLp ⟨a + i, h⟩ else 0

theorem isReal_diagK (k : DKind) (hk : k ≠ .complex) {Bs : List (Mat ℂ)} {l : List (Σ n : ℕ, Matrix (Fin n) (Fin n) ℝ)}
    (hB : List.Forall₂ (fun A p => IsReal A p.2) Bs l) : IsReal (diagMatK k Bs) (blockDiag l) := by
  induction hB with
  | nil => exact ⟨rfl, rfl, hk, fun i => i.elim0⟩
  | @cons A p Bs l hA hB ih =>
    refine ⟨?_, ?_, hk, fun i j => ?_⟩
    · have := ih.rows
      simp only [diagMatK, List.map_cons, List.sum_cons, size, hA.rows] at this ⊢
      rw [this]
    · have := ih.cols
      simp only [diagMatK, List.map_cons, List.sum_cons, size, hA.cols] at this ⊢
      rw [this]
    · have key := ih.entry
      simp only [diagMatK] at key
      simp only [diagMatK, List.map_cons, locate, hA.rows, hA.cols]
      change Fin (p.1 + size l) at i j
      refine Fin.addCases (fun i => ?_) (fun i => ?_) i <;> refine Fin.addCases (fun j => ?_) (fun j => ?_) j
      · have e : ((Fin.castAdd (size l) i : Fin (p.1 + size l)) : ℕ) < p.1 := by simp
        have f : ((Fin.castAdd (size l) j : Fin (p.1 + size l)) : ℕ) < p.1 := by simp
        rw [if_pos e, if_pos f]
        simpa [blockDiag, blk2] using hA.entry i j
      · have e : ((Fin.castAdd (size l) i : Fin (p.1 + size l)) : ℕ) < p.1 := by simp
        have f : ¬ ((Fin.natAdd p.1 j : Fin (p.1 + size l)) : ℕ) < p.1 := by simp
        rw [if_pos e, if_neg f]
        simp [blockDiag, blk2]
      · have e : ¬ ((Fin.natAdd p.1 i : Fin (p.1 + size l)) : ℕ) < p.1 := by simp
        have f : ((Fin.castAdd (size l) j : Fin (p.1 + size l)) : ℕ) < p.1 := by simp
        rw [if_neg e, if_pos f]
        simp [blockDiag, blk2]
      · have e : ¬ ((Fin.natAdd p.1 i : Fin (p.1 + size l)) : ℕ) < p.1 := by simp
        have f : ¬ ((Fin.natAdd p.1 j : Fin (p.1 + size l)) : ℕ) < p.1 := by simp
        rw [if_neg e, if_neg f]
        have := key i j
        simpa [blockDiag, blk2] using this

theorem isReal_diag {Bs : List (Mat ℂ)} {l : List (Σ n : ℕ, Matrix (Fin n) (Fin n) ℝ)}
    (hB : List.Forall₂ (fun A p => IsReal A p.2) Bs l) : IsReal (diagMat Bs) (blockDiag l) := by
  refine isReal_diagK _ (foldl_join_real _ _ (by simp) fun b hb => ?_) hB
  obtain ⟨A, hA, rfl⟩ := List.mem_map.1 hb
  clear hb
  induction hB with
  | nil => simp at hA
  | cons h1 _ ih =>
    rcases List.mem_cons.1 hA with rfl | hA
    · exact h1.kind
    · exact ih hA

theorem slice_cat_left {m n : ℕ} (u : RVec m) (v : RVec n) : slice 0 m (cat u v) = u := by
  ext i
  have : 0 + (i : ℕ) < m + n := by have := i.2; omega
  simp only [slice, this, dif_pos, cat]
  have e : (⟨0 + (i : ℕ), this⟩ : Fin (m + n)) = Fin.castAdd n i := by ext; simp
  rw [e, Fin.append_left]

theorem slice_cat_right {m n : ℕ} (a k : ℕ) (u : RVec m) (v : RVec n) : slice (m + a) k (cat u v) = slice a k v := by
  ext i
  simp only [slice, cat]
  by_cases h : a + (i : ℕ) < n
  · have h' : m + a + (i : ℕ) < m + n := by omega
    rw [dif_pos h, dif_pos h']
    have e : (⟨m + a + (i : ℕ), h'⟩ : Fin (m + n)) = Fin.natAdd m ⟨a + i, h⟩ := by ext; simp; omega
    rw [e, Fin.append_right]
  · have h' : ¬ m + a + (i : ℕ) < m + n := by omega
    rw [dif_neg h, dif_neg h']

theorem lin_zero {m n : ℕ} (u : RVec n) : lin (0 : Matrix (Fin m) (Fin n) ℝ) u = 0 := by
  rw [lin_apply, Matrix.zero_mulVec]; rfl

theorem lin_diag_cons (p : Σ n : ℕ, Matrix (Fin n) (Fin n) ℝ) (l : List (Σ n : ℕ, Matrix (Fin n) (Fin n) ℝ)) (u : RVec p.1)
    (v : RVec (size l)) : lin (blockDiag (p :: l)) (cat u v : RVec (p.1 + size l)) = cat (lin p.2 u) (lin (blockDiag l) v) := by
  have := lin_blk2 p.2 0 0 (blockDiag l) u v
  rw [lin_zero, lin_zero, add_zero, zero_add] at this
  exact this

/-- part `I` of a product is the product of block `I` and part `I` of the argument -/
theorem diag_slice : ∀ (l : List (Σ n : ℕ, Matrix (Fin n) (Fin n) ℝ)) (x : RVec (size l)) (I : ℕ) (p : Σ n : ℕ, Matrix (Fin n) (Fin n) ℝ),
    l[I]? = some p → slice (size (l.take I)) p.1 (lin (blockDiag l) x) = lin p.2 (slice (size (l.take I)) p.1 x)
  | [], _, _, _, h => by simp at h
  | q :: l, x, 0, p, h => by
    obtain rfl : q = p := by simpa using h
    obtain ⟨u, v, rfl⟩ := cat_surj (m := q.1) (n := size l) x
    rw [lin_diag_cons]
    simp only [List.take_zero, size]
    rw [slice_cat_left]
    exact congrArg _ (slice_cat_left u v).symm
  | q :: l, x, I + 1, p, h => by
    obtain ⟨u, v, rfl⟩ := cat_surj (m := q.1) (n := size l) x
    rw [lin_diag_cons]
    simp only [List.take_succ_cons, size]
    rw [slice_cat_right]
    have := diag_slice l v I p (by simpa using h)
    rw [this]
    exact congrArg _ (slice_cat_right _ _ u v).symm

theorem diag_T : ∀ (l : List (Σ n : ℕ, Matrix (Fin n) (Fin n) ℝ)), (∀ p ∈ l, p.2.transpose = p.2) →
    (blockDiag l).transpose = blockDiag l
  | [], _ => by ext i; exact i.elim0
  | p :: l, h => by
    have h1 := h p (by simp)
    have h2 := diag_T l fun q hq => h q (by simp [hq])
    have := blk2_T p.2 0 0 (blockDiag l)
    rw [h1, h2, Matrix.transpose_zero, Matrix.transpose_zero] at this
    exact this

theorem diag_pos : ∀ (l : List (Σ n : ℕ, Matrix (Fin n) (Fin n) ℝ)), (∀ p ∈ l, ∀ u, u ≠ 0 → 0 < inner ℝ u (lin p.2 u)) →
    ∀ x, x ≠ 0 → 0 < inner ℝ x (lin (blockDiag l) x)
  | [], _, x, hx => absurd (by ext i; exact i.elim0) hx
  | p :: l, h, x, hx => by
    obtain ⟨u, v, rfl⟩ := cat_surj (m := p.1) (n := size l) x
    rw [lin_diag_cons]
    have e : inner ℝ (cat u v : RVec (p.1 + size l)) (cat (lin p.2 u) (lin (blockDiag l) v)) =
        inner ℝ u (lin p.2 u) + inner ℝ v (lin (blockDiag l) v) := inner_cat _ _ _ _
    refine lt_of_lt_of_eq ?_ e.symm
    have h1 : 0 ≤ inner ℝ u (lin p.2 u) := by
      by_cases hu : u = 0
      · simp [hu]
      · exact (h p (by simp) u hu).le
    have ih := diag_pos l fun q hq => h q (by simp [hq])
    by_cases hv : v = 0
    · have hu : u ≠ 0 := by
        rintro rfl
        refine hx ?_
        subst hv
        ext i
        change Fin (p.1 + size l) at i
        refine Fin.addCases (fun i => ?_) (fun i => ?_) i <;> simp [cat] <;> rfl
      simpa [hv] using h p (by simp) u hu
    · linarith [ih v hv]

theorem diag_spd {l : List (Σ n : ℕ, Matrix (Fin n) (Fin n) ℝ)} (hP : ∀ p ∈ l, p.2.PosDef) : Spd (lin (blockDiag l)) := by
  constructor
  · intro u v
    rw [lin_adj, diag_T l fun p hp => by simpa using (hP p hp).isHermitian.eq]
  · exact diag_pos l fun p hp u hu => (spd_lin (hP p hp)).2 u hu

theorem diag_square {Bs : List (Mat ℂ)} {l : List (Σ n : ℕ, Matrix (Fin n) (Fin n) ℝ)}
    (hB : List.Forall₂ (fun A p => IsReal A p.2) Bs l) : ∀ A ∈ Bs, A.rows = A.cols := by
  induction hB with
  | nil => simp
  | cons h1 _ ih =>
    intro A hA
    rcases List.mem_cons.1 hA with rfl | hA
    · rw [h1.rows, h1.cols]
    · exact ih A hA

/-- **C68, block diagonal systems.** From any non-empty list of operators that are positive definite matrices,
`BlockDiagonalLinearOperator(list)` builds an operator on which CG (zero tolerances, any starting state of the solver object) reports
success within as many products as unknowns, and part `I` of the solution solves the system of block `I` with part `I` of the
right-hand side. -/
theorem C68_diagonal (R : ReachTotal env h mats) {bs : List (Option ℕ)} {Bs : List (Mat ℂ)} (g : BlockList env mats bs Bs)
    (hne : Bs ≠ []) {l : List (Σ n : ℕ, Matrix (Fin n) (Fin n) ℝ)} (hB : List.Forall₂ (fun A p => IsReal A p.2) Bs l)
    (hP : ∀ p ∈ l, p.2.PosDef) :
    ∃ op, mkDiag h bs = .ok op ∧
      let K := (op.objs h).1
      let h' := (op.objs h).2
      ReachTotal (env ++ [K]) h' (mats ++ [diagMat Bs]) ∧
      ∀ fuel, h'.length ≤ fuel → ∀ (b : RVec (size l)) (self : CGObj Fl (Vec (RVec (size l)))) (kw : CGKw (Vec (RVec (size l)))),
        kw.Runs → kw.guess = none → kw.matvecMax = none →
        let out := cgSolve (apply h' fuel K (size l) (size l)) { abstol := .fin 0, reltol := .fin 0 } (size l) self (.fin b) kw
        out.1.converged = true ∧ out.1.nMatvec ≤ size l ∧ ∃ x, out.1.x = some (.fin x) ∧
          ∀ (I : ℕ) (p : Σ n : ℕ, Matrix (Fin n) (Fin n) ℝ), l[I]? = some p →
            p.2.mulVec (slice (size (l.take I)) p.1 x).ofLp = (slice (size (l.take I)) p.1 b).ofLp := by
  obtain ⟨op, h1, -, R'⟩ := C20_square_partial R g hne (diag_square hB)
  have hK := isReal_diag hB
  have eK : (env ++ [(op.objs h).1])[env.length]? = some (op.objs h).1 := by simp
  have mK : (mats ++ [diagMat Bs])[env.length]? = some (diagMat Bs) := by simp [R.reach.len]
  have spd := diag_spd hP
  refine ⟨op, h1, R', fun fuel hf b self kw hk hg hm => ?_⟩
  have hop := (api_ops R' eK mK hK hf).1
  have hfr : Module.finrank ℝ (RVec (size l)) = size l := finrank_euclideanSpace_fin
  intro out
  have hT := C28_terminates_partial { A := lin (blockDiag l), b := b, guess := none, abstol := 0, reltol := 0 } ⟨spd.1, spd.2⟩ self kw hk
    hg le_rfl (by rw [hm]; simp)
  simp only [hfr, hg, CGProblem.opts, Option.isSome_none, Bool.false_eq_true, if_false, add_zero] at hT
  rw [← hop] at hT
  obtain ⟨e1, e2, ⟨x, e3, -, e4⟩, -⟩ := hT
  refine ⟨e1, e2, x, e3, fun I p hp => ?_⟩
  have e5 : lin (blockDiag l) x = b := e4 trivial trivial
  have e6 := diag_slice l x I p hp
  rw [e5] at e6
  exact congrArg WithLp.ofLp e6.symm

/-- **C68, block diagonal preconditioners.** `BlockDiagonalPreconditioner(list)`, for any list of operators that are positive definite
matrices, is a positive definite preconditioner `P` made of these blocks.  MINRES with it on any symmetric operator of the program,
if `(A - shift I) P` is not singular to machine precision (in the norm of `P`), converges within as many iterations as unknowns or
stops with code -1; and the residual of a finite result is the smallest in the norm of `P` among the vectors of its Krylov space. -/
theorem C68_preconditioner (R : ReachTotal env h mats) {bs : List (Option ℕ)} {Bs : List (Mat ℂ)} (g : BlockList env mats bs Bs)
    (hne : Bs ≠ []) {l : List (Σ n : ℕ, Matrix (Fin n) (Fin n) ℝ)} (hB : List.Forall₂ (fun A p => IsReal A p.2) Bs l)
    (hP : ∀ p ∈ l, p.2.PosDef) :
    ∃ op, mkDiag h bs = .ok op ∧
      let K := (op.objs h).1
      let h' := (op.objs h).2
      ReachTotal (env ++ [K]) h' (mats ++ [diagMat Bs]) ∧ ∃ P : RVec (size l) →ₗ[ℝ] RVec (size l),
      Spd P ∧
      (∀ x (I : ℕ) (p : Σ n : ℕ, Matrix (Fin n) (Fin n) ℝ), l[I]? = some p →
        slice (size (l.take I)) p.1 (P x) = lin p.2 (slice (size (l.take I)) p.1 x)) ∧
      ∀ fuel, h'.length ≤ fuel → (∀ x, apply h' fuel K (size l) (size l) (.fin x) = .fin (P x)) ∧
        ∀ (i r : ℕ) (A : Mat ℂ) (M : Matrix (Fin (size l)) (Fin (size l)) ℝ), env[i]? = some r → mats[i]? = some A → IsReal A M →
        M.transpose = M → ∀ (b : RVec (size l)) (shift ε rtol etol : ℝ) (check storeIterates : Bool) (itnlim : Option ℕ) (window : ℕ)
          (self : MinresObj Fl (Vec (RVec (size l)))), b ≠ 0 → 0 < ε →
          (∀ z, ε * pnorm P z ≤ pnorm P (lin M (P z) - shift • P z)) → 0 ≤ rtol → (∀ k, itnlim = some k → size l ≤ k) → window ≠ 0 →
          ∃ res products,
            minresSolve (apply h' fuel r (size l) (size l)) (.fin ε) (size l) self (.fin b)
              { ({ A := lin M, b := b, shift := shift, check := check, itnlim := itnlim, rtol := rtol, etol := etol,
                   storeIterates := storeIterates, window := window } : MinresProblem (RVec (size l))).kw with
                precon := some (apply h' fuel K (size l) (size l)) } = .ok (res, products) ∧
            (res.istop = -1 ∨ res.converged = true ∧ products.length ≤ size l) ∧
            ∀ x, res.x = .fin x →
              x ∈ krylov (P ∘ₗ (lin M - shift • LinearMap.id)) (P b) products.length ∧
              ∀ z ∈ krylov (P ∘ₗ (lin M - shift • LinearMap.id)) (P b) products.length,
                pnorm P (b - (lin M x - shift • x)) ≤ pnorm P (b - (lin M z - shift • z)) := by
  obtain ⟨op, h1, -, R'⟩ := C20_square_partial R g hne (diag_square hB)
  have hK := isReal_diag hB
  have eK : (env ++ [(op.objs h).1])[env.length]? = some (op.objs h).1 := by simp
  have mK : (mats ++ [diagMat Bs])[env.length]? = some (diagMat Bs) := by simp [R.reach.len]
  have spd := diag_spd hP
  refine ⟨op, h1, R', _, spd, fun x I p hp => diag_slice l x I p hp, fun fuel hf => ⟨fun x => ?_, ?_⟩⟩
  · rw [(api_ops R' eK mK hK hf).1]; rfl
  intro i r A M hi hm hM hS b shift ε rtol etol check storeIterates itnlim window self hb hε hlow hrt hlim hw
  have hfr : Module.finrank ℝ (RVec (size l)) = size l := finrank_euclideanSpace_fin
  let q : MinresProblem (RVec (size l)) :=
    { A := lin M, b := b, shift := shift, check := check, itnlim := itnlim, rtol := rtol, etol := etol,
      storeIterates := storeIterates, window := window }
  have hq : ∀ u v, inner ℝ (q.A u) v = inner ℝ u (q.A v) := fun u v => by
    change inner ℝ (lin _ u) v = inner ℝ u (lin _ v)
    rw [lin_adj, hS]
  obtain ⟨res, products, e1, e2⟩ := C34_preconditioned_partial q hq _ spd ε hε hlow hw hrt hb (by rw [hfr]; exact hlim) self
  obtain ⟨res', products', e3, -, e4⟩ := C35_preconditioned_partial q hq _ spd ε hε hlow hw (size l) self
  rw [hfr] at e1 e2
  rw [e1] at e3
  cases e3
  refine ⟨res, products, ?_, e2, fun x hx => ?_⟩
  · rw [(api_ops R' eK mK hK hf).1, (api_ops R' (getElem?_snoc hi) (getElem?_snoc hm) hM hf).1]
    exact e1
  · obtain ⟨xs, f1, f2, -, -, -, -, f3⟩ := e4 x hx
    refine f3 products.length x ?_
    rw [← f2, List.getLast?_eq_getElem?]
    simp [f1]

/-! ### A concrete program -/

/-- `B` from the array `[[1, 2], [3, 4]]`, `A = diag(2, 3)`, `E = diag(-2, -5)`, the identity -/
noncomputable def bprog : List (Cmd ℂ) :=
  [.nd ⟨.real, 2, 2, fun i j => 2 * i + j + 1⟩ false none, .diag ⟨.real, [2, 3]⟩, .diag ⟨.real, [-2, -5]⟩, .ident 2 .real]

theorem bprog_wf : WFAll [] bprog := by
  refine ⟨⟨?_, by simp, by simp⟩, fun A hA => ?_⟩
  · intro i _ j _
    exact ⟨2 * i + j + 1, by simp [Mat.ofNd]⟩
  cases hA
  refine ⟨?_, fun A hA => ?_⟩
  · intro a ha
    simp only [List.mem_cons, List.not_mem_nil, or_false] at ha
    rcases ha with rfl | rfl
    · exact ⟨2, by simp⟩
    · exact ⟨3, by simp⟩
  cases hA
  refine ⟨?_, fun A hA => ?_⟩
  · intro a ha
    simp only [List.mem_cons, List.not_mem_nil, or_false] at ha
    rcases ha with rfl | rfl
    · exact ⟨-2, by simp⟩
    · exact ⟨-5, by simp⟩
  cases hA
  exact ⟨trivial, fun A hA => trivial⟩

theorem bprog_reach : ∃ env h mB mA mE mI, execAll bprog ([], []) = .ok (env, h) ∧ ReachTotal env h [mB, mA, mE, mI] ∧
    IsReal mB (!![1, 2; 3, 4] : Matrix (Fin 2) (Fin 2) ℝ) ∧ IsReal mA (!![2, 0; 0, 3] : Matrix (Fin 2) (Fin 2) ℝ) ∧
    IsReal mE (-!![2, 0; 0, 5] : Matrix (Fin 2) (Fin 2) ℝ) ∧ IsReal mI ((1 : ℝ) • (1 : Matrix (Fin 2) (Fin 2) ℝ)) ∧
    ∃ rB rA rE rI oA oE, env = [rB, rA, rE, rI] ∧ h[rA]? = some oA ∧ oA.symmetric = true ∧ h[rE]? = some oE ∧
      oE.symmetric = true := by
  refine ⟨_, _, _, _, _, _, rfl, ⟨bprog, bprog_wf, by simp [bprog, Cmd.Complete], rfl, rfl⟩, ⟨rfl, rfl, by decide, ?_⟩,
    ⟨rfl, rfl, by decide, ?_⟩, ⟨rfl, rfl, by decide, ?_⟩, ⟨rfl, rfl, by decide, ?_⟩, _, _, _, _, _, _, rfl, rfl, rfl, rfl, rfl⟩
  all_goals
    intro i j
    fin_cases i <;> fin_cases j <;> simp [Mat.diag, Mat.ofNd, Mat.ident] <;> norm_num

/-- `BlockLinearOperator([[B], [I]])`: regularization with `damp = 1` -/
example : ∃ env h rB rI op, execAll bprog ([], []) = .ok (env, h) ∧ mkBlock h [[some rB], [some rI]] false false = .ok (op, [[some rB], [some rI]]) ∧
    ∃ tB tK, getT (op.objs h).2 rB = some tB ∧ getT (op.objs h).2 (op.objs h).1 = some tK ∧ ∃ res s res' s' x,
      lsqrSolve (apply (op.objs h).2 (op.objs h).2.length rB 2 2) (apply (op.objs h).2 (op.objs h).2.length tB 2 2) 2
        (.fin (WithLp.toLp 2 ![1, 0])) (lsqrKw 1 0 false false 5) = .ok (res, s) ∧
      lsqrSolve (apply (op.objs h).2 (op.objs h).2.length (op.objs h).1 2 4) (apply (op.objs h).2 (op.objs h).2.length tK 4 2) 2
        (.fin (cat (m := 2) (n := 2) (WithLp.toLp 2 ![1, 0]) 0)) (lsqrKw 0 0 false false 5) = .ok (res', s') ∧
      res.x = .fin x ∧ res'.x = .fin x := by
  obtain ⟨env, h, mB, mA, mE, mI, he, R, hB, hA, hE, hI, rB, rA, rE, rI, oA, oE, rfl, h1, h2, h3, h4⟩ := bprog_reach
  obtain ⟨op, k1, -, tB, tK, k2, k3, k4⟩ := C68_regularized R (i := 0) (j := 3) rfl rfl rfl rfl (by norm_num) (one_ne_zero) hB hI
    (WithLp.toLp 2 ![1, 0]) (by
      intro h0
      have := congrFun h0 0
      simp [Matrix.mulVec, dotProduct, Fin.sum_univ_two] at this) 0 false false 5 (by norm_num)
  obtain ⟨res, s, res', s', x, e1, e2, -, -, e3, e4, -⟩ := k4 _ le_rfl
  exact ⟨_, h, rB, rI, op, he, k1, tB, tK, k2, k3, res, s, res', s', x, e1, e2, e3, e4⟩

/-- `BlockLinearOperator([[A, B], [E]], symmetric=True)`: MINRES finds the solution with an error of at most half the residual -/
example : ∃ env h rA rB rE op G, execAll bprog ([], []) = .ok (env, h) ∧ mkBlock h [[some rA, some rB], [some rE]] true false = .ok (op, G) ∧
    ∃ res products, minresSolve (apply (op.objs h).2 (op.objs h).2.length (op.objs h).1 4 4) (.fin 1) 4 ⟨[]⟩
        (.fin (cat (m := 2) (n := 2) (WithLp.toLp 2 ![1, 0]) 0))
        ({ A := lin (saddle !![2, 0; 0, 3] !![1, 2; 3, 4] !![2, 0; 0, 5]), b := cat (m := 2) (n := 2) (WithLp.toLp 2 ![1, 0]) 0,
           shift := 0, check := true, itnlim := none, rtol := 0, etol := 0, storeIterates := true, window := 5 } :
          MinresProblem (RVec 4)).kw = .ok (res, products) ∧ (res.istop = -1 ∨ res.converged = true ∧ products.length ≤ 4) := by
  obtain ⟨env, h, mB, mA, mE, mI, he, R, hB, hA, hE, hI, rB, rA, rE, rI, oA, oE, rfl, h1, h2, h3, h4⟩ := bprog_reach
  obtain ⟨op, G, k1, -, k2⟩ := C68_quasidefinite R (i := 1) (j := 0) (l := 2) rfl rfl rfl rfl rfl rfl hA hB hE h1 h2 h3 h4 (α := 2)
    (by norm_num)
    (fun u => by
      rw [EuclideanSpace.norm_sq_eq]
      simp [lin_apply, PiLp.inner_apply, Matrix.mulVec, dotProduct, Fin.sum_univ_two]
      nlinarith [sq_nonneg (u.ofLp 1)])
    (fun u => by
      rw [EuclideanSpace.norm_sq_eq]
      simp [lin_apply, PiLp.inner_apply, Matrix.mulVec, dotProduct, Fin.sum_univ_two]
      nlinarith [sq_nonneg (u.ofLp 1)])
  obtain ⟨-, k3⟩ := k2 _ le_rfl (WithLp.toLp 2 ![1, 0]) 0 (fun h0 => by
    have h5 : Fin.append (![1, 0] : Fin 2 → ℝ) (0 : Fin 2 → ℝ) (Fin.castAdd 2 0) = 0 := congrArg (fun w => w.ofLp (Fin.castAdd 2 0)) h0
    rw [Fin.append_left] at h5
    simp at h5)
  obtain ⟨res, products, e1, e2, -⟩ := k3 1 0 0 true true none 5 ⟨[]⟩ (by norm_num) (by norm_num) le_rfl (by simp) (by norm_num)
  exact ⟨_, h, rA, rB, rE, op, G, he, k1, res, products, e1, e2⟩

theorem dA_posDef {c d : ℝ} (hc : 0 < c) (hd : 0 < d) : (!![c, 0; 0, d] : Matrix (Fin 2) (Fin 2) ℝ).PosDef := by
  refine Matrix.PosDef.of_dotProduct_mulVec_pos ?_ ?_
  · ext i j
    fin_cases i <;> fin_cases j <;> simp
  · intro x hx
    simp only [Matrix.mulVec, dotProduct, Fin.sum_univ_two, Matrix.of_apply, Matrix.cons_val_zero, Matrix.cons_val_one,
      star_trivial, Pi.star_apply]
    have : 0 < c * x 0 ^ 2 + d * x 1 ^ 2 := by
      rcases eq_or_ne (x 0) 0 with h0 | h0
      · have h1 : x 1 ≠ 0 := fun h1 => hx (by ext i; fin_cases i <;> simp [h0, h1])
        positivity
      · positivity
    linarith

/-- `BlockDiagonalLinearOperator([A, I, A])`: CG solves three systems at once, and the second part of the right-hand side is the
second part of the solution -/
example (b : RVec 6) : ∃ env h bs op, execAll bprog ([], []) = .ok (env, h) ∧ mkDiag h bs = .ok op ∧ bs.length = 3 ∧
    ∃ x : RVec 6, (cgSolve (apply (op.objs h).2 (op.objs h).2.length (op.objs h).1 6 6) { abstol := .fin 0, reltol := .fin 0 } 6 {} (.fin b)
        {}).1.x = some (.fin x) ∧
      slice 2 2 x = slice 2 2 b ∧ (!![2, 0; 0, 3] : Matrix (Fin 2) (Fin 2) ℝ).mulVec (slice 4 2 x).ofLp = (slice 4 2 b).ofLp := by
  obtain ⟨env, h, mB, mA, mE, mI, he, R, hB, hA, hE, hI, rB, rA, rE, rI, oA, oE, rfl, h1, h2, h3, h4⟩ := bprog_reach
  obtain ⟨op, k1, -, k2⟩ := C68_diagonal R (bs := [some rA, some rI, some rA]) (Bs := [mA, mI, mA])
    (.cons ⟨1, rA, rfl, rfl, rfl⟩ (.cons ⟨3, rI, rfl, rfl, rfl⟩ (.cons ⟨1, rA, rfl, rfl, rfl⟩ .nil))) (by simp)
    (l := [⟨2, !![2, 0; 0, 3]⟩, ⟨2, (1 : ℝ) • 1⟩, ⟨2, !![2, 0; 0, 3]⟩]) (.cons hA (.cons hI (.cons hA .nil))) (by
      intro p hp
      simp only [List.mem_cons, List.not_mem_nil, or_false] at hp
      rcases hp with rfl | rfl | rfl
      · exact dA_posDef (by norm_num) (by norm_num)
      · change ((1 : ℝ) • (1 : Matrix (Fin 2) (Fin 2) ℝ)).PosDef
        rw [one_smul, Matrix.one_fin_two]
        exact dA_posDef one_pos one_pos
      · exact dA_posDef (by norm_num) (by norm_num))
  obtain ⟨-, -, x, e1, e2⟩ := k2 _ le_rfl b {} {} rfl rfl rfl
  refine ⟨_, h, _, op, he, k1, rfl, x, e1, ?_, ?_⟩
  · have := e2 1 _ rfl
    simp only [one_smul, Matrix.one_mulVec] at this
    exact congrArg (WithLp.toLp 2) this
  · exact e2 2 _ rfl

theorem low23 (z : RVec 2) : inner ℝ z (lin !![2, 0; 0, 3] z) ≤
    inner ℝ (lin !![2, 0; 0, 3] (lin !![2, 0; 0, 3] z)) (lin !![2, 0; 0, 3] (lin !![2, 0; 0, 3] (lin !![2, 0; 0, 3] z))) := by
  simp [lin_apply, PiLp.inner_apply, Matrix.mulVec, dotProduct, Fin.sum_univ_two]
  nlinarith [sq_nonneg (z.ofLp 0), sq_nonneg (z.ofLp 1)]

/-- the hypotheses of `C68_preconditioner` are met by `diag(2, 3)` as the only block of the preconditioner and as the operator -/
example : ∃ env h rA op, execAll bprog ([], []) = .ok (env, h) ∧ mkDiag h [some rA] = .ok op ∧
    ∃ res products, minresSolve (apply (op.objs h).2 (op.objs h).2.length rA 2 2) (.fin 1) 2 ⟨[]⟩ (.fin (WithLp.toLp 2 ![1, 0]))
      { ({ A := lin !![2, 0; 0, 3], b := WithLp.toLp 2 ![1, 0], shift := 0, check := true, itnlim := none, rtol := 0, etol := 0,
           storeIterates := true, window := 5 } : MinresProblem (RVec 2)).kw with
        precon := some (apply (op.objs h).2 (op.objs h).2.length (op.objs h).1 2 2) } = .ok (res, products) ∧
      (res.istop = -1 ∨ res.converged = true ∧ products.length ≤ 2) := by
  obtain ⟨env, h, mB, mA, mE, mI, he, R, hB, hA, hE, hI, rB, rA, rE, rI, oA, oE, rfl, h1, h2, h3, h4⟩ := bprog_reach
  obtain ⟨op, k1, -, P, hP, k2, k3⟩ := C68_preconditioner R (bs := [some rA]) (Bs := [mA]) (.cons ⟨1, rA, rfl, rfl, rfl⟩ .nil) (by simp)
    (l := [⟨2, !![2, 0; 0, 3]⟩]) (.cons hA .nil) (by
      intro p hp
      simp only [List.mem_cons, List.not_mem_nil, or_false] at hp
      subst hp
      exact dA_posDef (by norm_num) (by norm_num))
  obtain ⟨-, k4⟩ := k3 _ le_rfl
  have hs : ∀ x : RVec 2, slice 0 2 x = x := fun x => by
    ext i
    have : 0 + (i : ℕ) < 2 := by have := i.2; omega
    simp only [slice, this, dif_pos]
    exact congrArg x.ofLp (Fin.ext (by simp))
  have hPx : ∀ x : RVec 2, P x = lin !![2, 0; 0, 3] x := fun x => by
    have h5 : slice 0 2 (P x) = lin !![2, 0; 0, 3] (slice 0 2 x) := k2 x 0 _ rfl
    rwa [hs, show slice 0 2 (P x) = P x from hs _] at h5
  obtain ⟨res, products, e1, e2, -⟩ := k4 1 rA mA !![2, 0; 0, 3] rfl rfl hA (by
      ext i j; change Fin 2 at i j; fin_cases i <;> fin_cases j <;> rfl)
    (WithLp.toLp 2 ![1, 0]) 0 1 0 0 true true none 5 ⟨[]⟩
    (fun h0 => by
      have h5 : (![1, 0] : Fin 2 → ℝ) 0 = 0 := congrArg (fun w : RVec 2 => w.ofLp 0) h0
      simp at h5)
    (by norm_num)
    (fun z => by
      rw [zero_smul, sub_zero, one_mul]
      refine Real.sqrt_le_sqrt ?_
      change inner ℝ (z : RVec 2) (P z) ≤ inner ℝ (lin !![2, 0; 0, 3] (P z) : RVec 2) (P (lin !![2, 0; 0, 3] (P z) : RVec 2))
      have e1 : P z = lin !![2, 0; 0, 3] (z : RVec 2) := hPx z
      rw [hPx, e1]
      exact low23 z)
    le_rfl (by simp) (by norm_num)
  exact ⟨_, h, rA, op, he, k1, res, products, e1, e2⟩

end Verif.Link
