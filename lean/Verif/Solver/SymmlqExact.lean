import Verif.Solver.SymmlqProps
import Verif.Solver.SymmlqMath
import Verif.Solver.MinresExact

/-!
# SYMMLQ in exact arithmetic

The program follows the recurrences of `SymmlqMath.lean`.
-/

namespace Verif.Solver
open Scalar Vect
open scoped RealInnerProductSpace
open MinresMath (krylov)

variable {E : Type} [NormedAddCommGroup E] [InnerProductSpace ℝ E]

/-- A SYMMLQ problem without preconditioner and with finite data. -/
structure SymmlqProblem (E : Type) [NormedAddCommGroup E] [InnerProductSpace ℝ E] where
  A : E →ₗ[ℝ] E
  b : E
  shift : Option ℝ
  rtol : ℝ
  eps : ℝ
  eps3 : ℝ
  check : Bool
  matvecMax : Option Nat
  storeIterates : Bool

namespace SymmlqProblem
variable (q : SymmlqProblem E)

/-- the shifted operator `A - shift I` -/
noncomputable def B : E →ₗ[ℝ] E := q.A - (q.shift.getD 0) • LinearMap.id

/-- the keywords -/
noncomputable def kw : SymmlqKw Fl :=
  { matvecMax := q.matvecMax, rtol := .fin q.rtol, check := q.check, shift := q.shift.map Fl.fin,
    storeIterates := q.storeIterates, eps := .fin q.eps, eps3 := .fin q.eps3 }

/-- the solver object, to which the client has given the missing attribute `matvec`, the product with the operator -/
def obj : SymmlqObj (Vec E) := { op := Vec.op q.A, precon := none, matvec := some (Vec.op q.A) }

/-- the first Lanczos vector -/
noncomputable def v1 : E := (1 / ‖q.b‖) • q.b

theorem B_symm (hA : ∀ u v, ⟪q.A u, v⟫ = ⟪u, q.A v⟫) (u v : E) : ⟪q.B u, v⟫ = ⟪u, q.B v⟫ := by
  simp only [B, LinearMap.sub_apply, LinearMap.smul_apply, LinearMap.id_apply, inner_sub_left,
    inner_sub_right, inner_smul_left, inner_smul_right, hA]
  simp

theorem shift_exact (v : E) : subShift (symmlqShift q.kw) (Vec.op q.A (.fin v)) (.fin v) = .fin (q.B v) := by
  have hf : ∀ σ : ℝ, feq (Fl.fin σ) (lit 0) = true ↔ σ = 0 := by
    intro σ
    unfold feq
    rw [Bool.and_eq_true, Fl.lit_eq, Fl.fin_le, Fl.fin_le]
    simp [le_antisymm_iff]
  unfold symmlqShift SymmlqProblem.kw SymmlqProblem.B
  cases hs : q.shift with
  | none => simp [subShift]
  | some σ =>
    simp only [Option.map_some]
    by_cases h0 : σ = 0
    · rw [if_pos ((hf σ).2 h0), h0]; simp [subShift]
    · rw [if_neg (by rw [hf]; exact h0)]; simp [subShift]

end SymmlqProblem

/-- the loop variables carry the finite values of `t` -/
structure QRel (q : SymmlqProblem E) (k : ℕ) (s : SymmlqLoop Fl (Vec E)) (t : SymmlqMath.St E) : Prop where
  xb : ∃ β : ℝ, s.bstep = .fin β ∧ s.x = .fin (t.xL - β • q.v1)
  w : s.w = .fin (t.wb - t.snprod • q.v1)
  y : s.y = .fin t.r2
  r2 : s.r2 = .fin t.r2
  ob : ∃ o : ℝ, o ≠ 0 ∧ s.oldb = .fin o ∧ s.r1 = .fin (o • t.v)
  beta : s.beta = .fin t.beta
  rhs1 : s.rhs1 = .fin t.rhs1
  rhs2 : s.rhs2 = .fin (t.rc * t.beta)
  tnorm : s.tnorm = .fin t.tnorm
  gbar : s.gbar = .fin t.gbar
  dbar : s.dbar = .fin (t.dc * t.beta)
  snprod : s.snprod = .fin t.snprod
  ynorm2 : s.ynorm2 = .fin t.ynorm2
  gmm : ∃ g h : ℝ, 0 < h ∧ s.gmax = .fin g ∧ s.gmin = .fin h
  nMatvec : s.nMatvec = k

/-- The values computed by the first half of an iteration, if there was no division by zero. -/
structure QTest (q : SymmlqProblem E) (s : SymmlqLoop Fl (Vec E)) (t : SymmlqMath.St E) (d cg c : ℝ) : Prop where
  dne : d ≠ 0
  deq : t.gbar ≠ 0 → d = t.gbar
  cgd : cg = t.snprod * ‖q.b‖ * t.beta / |d|
  lq : s.lqDiag = some (.fin ‖q.b - q.B t.xL‖, .fin d)
  cgnorm : s.cgnorm = .fin cg
  acond : s.acond = .fin c
  anorm : s.anorm = .fin (Real.sqrt t.tnorm)

theorem Fl.feq_zero (a : ℝ) : feq (Fl.fin a) (lit 0) = decide (a = 0) := by
  unfold feq
  rw [Fl.lit_eq, Bool.eq_iff_iff, decide_eq_true_iff]
  simp only [Bool.and_eq_true, Fl.fin_le, Rat.cast_zero]
  exact le_antisymm_iff.symm

theorem Fl.fin_pymin (a b : ℝ) : Scalar.pymin (Fl.fin a) (Fl.fin b) = .fin (min a b) := by
  unfold Scalar.pymin
  by_cases h : b < a
  · simp [h, min_eq_right h.le]
  · simp [h, min_eq_left (not_lt.1 h)]

theorem symmlqTest_exact (q : SymmlqProblem E) (he : 0 < q.eps) (lim : ℕ) {k : ℕ} {s : SymmlqLoop Fl (Vec E)}
    {t : SymmlqMath.St E} {S Sp : Submodule ℝ E} (hr : QRel q k s t) (hi : SymmlqMath.Inv q.B q.b k t S Sp)
    (ht : 0 < t.tnorm) :
    ∃ d cg c : ℝ, QTest q (symmlqTest q.kw lim (.fin ‖q.b‖) s) t d cg c ∧
      (symmlqTest q.kw lim (.fin ‖q.b‖) s).istop = symmlqTests q.kw lim k (.fin c)
        (.fin (Real.sqrt t.tnorm * ‖t.xL‖ * q.eps)) (.fin (Real.sqrt t.tnorm * ‖t.xL‖ * q.rtol)) (.fin cg) (.fin ‖q.b‖)
        s.istop ∧
      (∀ g h : ℝ, s.gmax = .fin g → s.gmin = .fin h → c = if ‖q.b - q.B t.xL‖ < cg then g / h else g / min h |d|) := by
  obtain ⟨g, h, hh, hg1, hg2⟩ := hr.gmm
  have hs := Real.sqrt_pos.2 ht
  obtain ⟨d, hd⟩ : ∃ d, d = if t.gbar = 0 then Real.sqrt t.tnorm * q.eps else t.gbar := ⟨_, rfl⟩
  have hd0 : d ≠ 0 := by
    rw [hd]; split
    · exact (mul_pos hs he).ne'
    · assumption
  have hyn : (0 : ℝ) ≤ t.ynorm2 := by rw [hi.xx]; exact real_inner_self_nonneg
  have e1 : sqrt s.tnorm = Fl.fin (Real.sqrt t.tnorm) := by rw [hr.tnorm, Fl.fin_sqrt ht.le]
  have e2 : sqrt s.ynorm2 = Fl.fin ‖t.xL‖ := by rw [hr.ynorm2, Fl.fin_sqrt hyn, hi.ynorm]
  have e3 : (if feq s.gbar (lit 0) then Fl.fin (Real.sqrt t.tnorm) * q.kw.eps else s.gbar) = .fin d := by
    have : q.kw.eps = Fl.fin q.eps := rfl
    rw [hr.gbar, Fl.feq_zero, this, hd]
    by_cases h0 : t.gbar = 0 <;> simp [h0]
  have e4 : sqrt (s.rhs1 * s.rhs1 + s.rhs2 * s.rhs2) = Fl.fin ‖q.b - q.B t.xL‖ := by
    rw [hr.rhs1, hr.rhs2, Fl.fin_mul, Fl.fin_mul, Fl.fin_add,
      Fl.fin_sqrt (add_nonneg (mul_self_nonneg _) (mul_self_nonneg _)), hi.lq_resid]
  have e5 : s.snprod * Fl.fin ‖q.b‖ * s.beta / Scalar.abs (Fl.fin d) = .fin (t.snprod * ‖q.b‖ * t.beta / |d|) := by
    rw [hr.snprod, hr.beta, Fl.fin_mul, Fl.fin_mul, Fl.fin_abs, Fl.fin_div _ (abs_pos.2 hd0).ne']
  obtain ⟨c, hc⟩ : ∃ c, c = if ‖q.b - q.B t.xL‖ < t.snprod * ‖q.b‖ * t.beta / |d| then g / h else g / min h |d| := ⟨_, rfl⟩
  have e6 : (if lt (Fl.fin ‖q.b - q.B t.xL‖) (Fl.fin (t.snprod * ‖q.b‖ * t.beta / |d|)) = true then s.gmax / s.gmin
      else s.gmax / pymin s.gmin (Scalar.abs (Fl.fin d))) = .fin c := by
    rw [hg1, hg2, Fl.fin_abs, Fl.fin_pymin, Fl.fin_div _ hh.ne', Fl.fin_div _ (lt_min hh (abs_pos.2 hd0)).ne', hc]
    simp only [Fl.fin_lt]
    split <;> rfl
  refine ⟨d, t.snprod * ‖q.b‖ * t.beta / |d|, c, ?_, ?_, ?_⟩
  · unfold symmlqTest
    simp only [e1, e3, e4, e5, e6]
    exact ⟨hd0, fun h => by rw [hd, if_neg h], rfl, rfl, rfl, rfl, rfl⟩
  · unfold symmlqTest
    simp only [e1, e2, e3, e4, e5, e6, hr.nMatvec]
    rfl
  · intro g' h' hg' hh'
    rw [hg1] at hg'
    rw [hg2] at hh'
    cases hg'
    cases hh'
    exact hc

theorem symmlqUpdate_exact (q : SymmlqProblem E) {k : ℕ} {s : SymmlqLoop Fl (Vec E)}
    {t : SymmlqMath.St E} {S Sp : Submodule ℝ E} (hr : QRel q k s t) (_hi : SymmlqMath.Inv q.B q.b k t S Sp)
    (hb : t.beta ≠ 0) :
    QRel q (k+1) (symmlqUpdate q.obj q.kw s) (SymmlqMath.step q.B t) ∧ (symmlqUpdate q.obj q.kw s).istop = s.istop ∧
    (symmlqUpdate q.obj q.kw s).broke = s.broke := by
  obtain ⟨o, ho, ho1, ho2⟩ := hr.ob
  obtain ⟨bs, hbs, hx⟩ := hr.xb
  obtain ⟨g, h, hh, hg1, hg2⟩ := hr.gmm
  have hv : smul (lit 1 / s.beta) s.y = .fin t.vn := by
    rw [hr.beta, hr.y, Fl.lit_eq, Fl.fin_div _ hb, Vec.fin_smul]; simp [SymmlqMath.St.vn]
  have hL : symmlqLanczos q.obj q.kw s = (.fin t.vn, .fin (SymmlqMath.alfa q.B t), .fin (SymmlqMath.q q.B t),
      .fin (SymmlqMath.q q.B t), .fin ⟪SymmlqMath.q q.B t, SymmlqMath.q q.B t⟫) := by
    have hop : q.obj.op = Vec.op q.A := rfl
    have hpr : ∀ z, applyPrecon q.obj.precon z = z := fun _ => rfl
    have h1 : Vec.fin (q.B t.vn) - smul (s.beta / s.oldb) s.r1 = .fin (q.B t.vn - t.beta • t.v) := by
      rw [hr.beta, ho1, ho2, Fl.fin_div _ ho, Vec.fin_smul, Vec.fin_sub, smul_smul]
      have : t.beta / o * o = t.beta := by field_simp
      rw [this]
    unfold symmlqLanczos
    simp only [hv, hop, q.shift_exact, hpr, h1, hr.r2, Vec.fin_dot]
    simp only [hr.beta, Fl.fin_div _ hb, Vec.fin_smul, Vec.fin_sub]
    rfl
  have hlt : lt (Fl.fin ⟪SymmlqMath.q q.B t, SymmlqMath.q q.B t⟫) (lit 0) = false := by
    rw [← Bool.not_eq_true, Fl.lit_eq, Fl.fin_lt, not_lt]; simpa using real_inner_self_nonneg
  have hsq : sqrt (Fl.fin ⟪SymmlqMath.q q.B t, SymmlqMath.q q.B t⟫) = .fin (SymmlqMath.beta' q.B t) :=
    Fl.fin_sqrt real_inner_self_nonneg
  have hγ : sqrt (s.gbar * s.gbar + s.beta * s.beta) = .fin (SymmlqMath.gam t) := by
    rw [hr.gbar, hr.beta, Fl.fin_mul, Fl.fin_mul, Fl.fin_add, Fl.fin_sqrt (add_nonneg (mul_self_nonneg _) (mul_self_nonneg _))]
    rfl
  have hγp := SymmlqMath.gam_pos t hb
  have hγ0 := hγp.ne'
  unfold symmlqUpdate
  simp only [hL, hlt, Bool.false_eq_true, if_false, hsq, hγ]
  rw [hr.gbar, hr.beta, hr.rhs1, hr.rhs2, hr.dbar, hr.snprod, hbs, hr.tnorm, hr.ynorm2, hx, hr.w, hg1, hg2]
  simp only [Fl.fin_div _ hγ0, Fl.fin_mul, Fl.fin_add, Fl.fin_sub, Fl.fin_neg, Vec.fin_smul, Vec.fin_add, Vec.fin_sub,
    Fl.fin_pymin, Fl.fin_pymax]
  refine ⟨?_, trivial, trivial⟩
  refine
    { xb := ⟨_, rfl, congrArg Vec.fin ?_⟩, w := congrArg Vec.fin ?_, y := rfl, r2 := rfl,
      ob := ⟨t.beta, hb, rfl, ?_⟩, beta := rfl, rhs1 := rfl, rhs2 := congrArg Fl.fin ?_, tnorm := rfl, gbar := rfl,
      dbar := congrArg Fl.fin ?_, snprod := rfl, ynorm2 := rfl, gmm := ⟨_, _, lt_min hh hγp, rfl, rfl⟩,
      nMatvec := by simp only [hr.nMatvec] }
  · simp only [SymmlqMath.step]; module
  · simp only [SymmlqMath.step]; module
  · simp only [hr.r2, SymmlqMath.step]
    rw [_hi.r2_eq hb]
  · simp only [SymmlqMath.step]; ring
  · rfl

/-- the state before the loop, or after a complete iteration -/
structure QGood (q : SymmlqProblem E) (s : SymmlqLoop Fl (Vec E)) : Prop where
  ex : ∃ (k : ℕ) (t : SymmlqMath.St E) (S Sp : Submodule ℝ E), QRel q k s t ∧ SymmlqMath.Inv q.B q.b k t S Sp ∧
    (s.istop = 0 ∨ s.istop = -1) ∧ (s.istop = -1 ↔ k = 1 ∧ t.beta ≤ q.eps) ∧
    (k = 1 → t.rhs1 = ‖q.b‖ ∧ t.gbar * ‖q.b‖ ^ 2 = ⟪q.b, q.B q.b⟫ ∧ t.xL = 0 ∧ t.rc = 0 ∧ t.snprod = 1)
  broke : s.broke = false

/-- What is known when a stopping test holds, depending on the code `i`. -/
def QStop (q : SymmlqProblem E) (i : Int) (k : ℕ) (t : SymmlqMath.St E) (cg c : ℝ) : Prop :=
  i = 1 ∧ cg ≤ Real.sqrt t.tnorm * ‖t.xL‖ * q.rtol ∨ i = 2 ∧ cg ≤ Real.sqrt t.tnorm * ‖t.xL‖ * q.eps ∨
  i = 3 ∧ ‖q.b‖ ≤ Real.sqrt t.tnorm * ‖t.xL‖ * q.eps ∨ i = 4 ∧ 1 / 10 / q.eps ≤ c ∨ i = -1 ∧ k = 1 ∧ t.beta ≤ q.eps

/-- the state after a `break` -/
structure QEnd (q : SymmlqProblem E) (s : SymmlqLoop Fl (Vec E)) : Prop where
  ex : ∃ (k : ℕ) (t : SymmlqMath.St E) (S Sp : Submodule ℝ E), QRel q k s t ∧ SymmlqMath.Inv q.B q.b k t S Sp ∧
    (k = 1 → t.rhs1 = ‖q.b‖ ∧ t.gbar * ‖q.b‖ ^ 2 = ⟪q.b, q.B q.b⟫ ∧ t.xL = 0 ∧ t.rc = 0 ∧ t.snprod = 1) ∧
    ((∃ d cg c, QTest q s t d cg c ∧ QStop q s.istop k t cg c) ∨
     t.gbar = 0 ∧ (∃ l, s.lqDiag = some (l, .fin 0)) ∧ s.cgnorm = .nan ∧ s.anorm = .fin (Real.sqrt t.tnorm))
  broke : s.broke = true

theorem symmlqTests_stop (q : SymmlqProblem E) {lim k : ℕ} (hk : k < lim) {ac ex er cg bb : ℝ} {i : Int} (hi : i = 0)
    (he : 0 < q.eps)
    (h : symmlqTests q.kw lim k (.fin ac) (.fin ex) (.fin er) (.fin cg) (.fin bb) i ≠ 0) :
    symmlqTests q.kw lim k (.fin ac) (.fin ex) (.fin er) (.fin cg) (.fin bb) i = 1 ∧ cg ≤ er ∨
    symmlqTests q.kw lim k (.fin ac) (.fin ex) (.fin er) (.fin cg) (.fin bb) i = 2 ∧ cg ≤ ex ∨
    symmlqTests q.kw lim k (.fin ac) (.fin ex) (.fin er) (.fin cg) (.fin bb) i = 3 ∧ bb ≤ ex ∨
    symmlqTests q.kw lim k (.fin ac) (.fin ex) (.fin er) (.fin cg) (.fin bb) i = 4 ∧ 1 / 10 / q.eps ≤ ac := by
  have e : q.kw.eps = Fl.fin q.eps := rfl
  have e4 : le (Fl.fin ((1 / 10 : ℚ) : ℝ) / Fl.fin q.eps) (Fl.fin ac) = decide (1 / 10 / q.eps ≤ ac) := by
    rw [Fl.fin_div _ he.ne', Bool.eq_iff_iff, Fl.fin_le, decide_eq_true_eq]
    push_cast
    exact Iff.rfl
  revert h
  unfold symmlqTests
  simp only [hi, if_true, ge, e, Fl.lit_eq, e4, Fl.fin_le, decide_eq_true_eq, ge_iff_le]
  have hk' : ¬ lim ≤ k := by omega
  by_cases h1 : cg ≤ er
  · simp only [if_pos h1]
    exact fun _ => Or.inl ⟨trivial, h1⟩
  by_cases h2 : cg ≤ ex
  · simp only [if_neg h1, if_pos h2]
    exact fun _ => Or.inr (Or.inl ⟨trivial, h2⟩)
  by_cases h3 : bb ≤ ex
  · simp only [if_neg h1, if_neg h2, if_pos h3]
    exact fun _ => Or.inr (Or.inr (Or.inl ⟨trivial, h3⟩))
  by_cases h4 : 1 / 10 / q.eps ≤ ac
  · simp only [if_neg h1, if_neg h2, if_neg h3, if_pos h4]
    exact fun _ => Or.inr (Or.inr (Or.inr ⟨trivial, h4⟩))
  · simp only [if_neg h1, if_neg h2, if_neg h3, if_neg h4, if_neg hk']
    exact fun h => absurd rfl h

theorem symmlqTests_go (q : SymmlqProblem E) {lim k : ℕ} {ac ex er cg bb : Fl}
    (h : symmlqTests q.kw lim k ac ex er cg bb 0 = 0) : le cg ex = false := by
  cases hc : le cg ex with
  | false => rfl
  | true =>
    exfalso
    unfold symmlqTests at h
    simp only [if_true, hc] at h
    split at h <;> simp at h

theorem symmlqStep_exact (q : SymmlqProblem E) (hA : ∀ u v, ⟪q.A u, v⟫ = ⟪u, q.A v⟫) (he : 0 < q.eps) (lim : ℕ)
    (s : SymmlqLoop Fl (Vec E)) (hs : QGood q s) (hc : symmlqCont lim s = true) :
    QGood q (symmlqStep q.obj q.kw lim (.fin ‖q.b‖) s) ∨ QEnd q (symmlqStep q.obj q.kw lim (.fin ‖q.b‖) s) := by
  simp only [symmlqCont, Bool.and_eq_true, Bool.not_eq_true', decide_eq_true_eq] at hc
  obtain ⟨k, t, S, Sp, hr, hi, hi0, him, hk1⟩ := hs.ex
  have hB := q.B_symm hA
  have hr' : QRel q k (symmlqTest q.kw lim (.fin ‖q.b‖) s) t :=
    ⟨hr.xb, hr.w, hr.y, hr.r2, hr.ob, hr.beta, hr.rhs1, hr.rhs2, hr.tnorm, hr.gbar, hr.dbar, hr.snprod, hr.ynorm2, hr.gmm,
      hr.nMatvec⟩
  have hbr : (symmlqTest q.kw lim (.fin ‖q.b‖) s).broke = decide ((symmlqTest q.kw lim (.fin ‖q.b‖) s).istop ≠ 0) := rfl
  have hkl : k < lim := by rw [← hr.nMatvec]; exact hc.2
  unfold symmlqStep
  simp only
  by_cases ht : 0 < t.tnorm
  · obtain ⟨d, cg, c, hT, hI, -⟩ := symmlqTest_exact q he lim hr hi ht
    generalize symmlqTest q.kw lim (.fin ‖q.b‖) s = s' at *
    by_cases hz : s'.istop = 0
    · left
      have hb' : s'.broke = false := by rw [hbr]; simp [hz]
      rw [if_neg (by rw [hb']; simp)]
      have hs0 : s.istop = 0 := by
        rcases hi0 with h | h
        · exact h
        · rw [hI, h] at hz; simp [symmlqTests] at hz
      have hbe : t.beta ≠ 0 := by
        intro h0
        rw [hs0] at hI
        have := symmlqTests_go q (hI.symm.trans hz)
        rw [← Bool.not_eq_true, Fl.fin_le, not_le] at this
        rw [hT.cgd, h0, mul_zero, zero_div] at this
        have h2 : 0 ≤ Real.sqrt t.tnorm * ‖t.xL‖ * q.eps := by positivity
        linarith
      obtain ⟨u1, u2, u3⟩ := symmlqUpdate_exact q hr' hi hbe
      have hi' := hi.step hB hbe
      have hkp := hi.kpos
      refine ⟨⟨k+1, _, _, _, u1, hi', Or.inl (u2.trans hz), ?_, fun h => by omega⟩, by rw [u3, hb']⟩
      rw [u2, hz]
      constructor
      · intro h; norm_num at h
      · intro h; omega
    · right
      have hb' : s'.broke = true := by rw [hbr]; simp [hz]
      rw [if_pos hb']
      refine ⟨⟨k, t, S, Sp, hr', hi, hk1, Or.inl ⟨d, cg, c, hT, ?_⟩⟩, hb'⟩
      rcases hi0 with h | h
      · rw [hI] at hz
        have hst := symmlqTests_stop q hkl h he hz
        rw [← hI] at hst
        rcases hst with h | h | h | h
        · exact Or.inl h
        · exact Or.inr (Or.inl h)
        · exact Or.inr (Or.inr (Or.inl h))
        · exact Or.inr (Or.inr (Or.inr (Or.inl h)))
      · exact Or.inr (Or.inr (Or.inr (Or.inr ⟨by rw [hI, h]; rfl, him.1 h⟩)))
  · right
    have hk : k = 1 := by
      by_contra h; exact ht (hi.tlt h)
    have hte := hi.tone hk
    have ht0 : t.tnorm = 0 := le_antisymm (not_lt.1 ht) (by rw [hte]; positivity)
    have hb0 : t.beta = 0 := by
      have : t.beta ^ 2 = 0 := by nlinarith [sq_nonneg t.beta, sq_nonneg t.gbar]
      exact pow_eq_zero_iff two_ne_zero |>.1 this
    have hg0 : t.gbar = 0 := by
      have : t.gbar ^ 2 = 0 := by nlinarith [sq_nonneg t.beta, sq_nonneg t.gbar]
      exact pow_eq_zero_iff two_ne_zero |>.1 this
    have hs1 : s.istop = -1 := him.2 ⟨hk, by rw [hb0]; exact he.le⟩
    have hd : (if feq s.gbar (lit 0) then sqrt s.tnorm * q.kw.eps else s.gbar) = .fin 0 := by
      have : q.kw.eps = Fl.fin q.eps := rfl
      rw [hr.gbar, Fl.feq_zero, hg0, hr.tnorm, ht0, Fl.fin_sqrt le_rfl, this]
      simp
    have hI : (symmlqTest q.kw lim (.fin ‖q.b‖) s).istop = -1 := by
      unfold symmlqTest
      simp only [hs1, symmlqTests]
      simp
    have hb' : (symmlqTest q.kw lim (.fin ‖q.b‖) s).broke = true := by rw [hbr, hI]; simp
    rw [if_pos hb']
    refine ⟨⟨k, t, S, Sp, hr', hi, hk1, Or.inr ⟨hg0, ⟨sqrt (s.rhs1 * s.rhs1 + s.rhs2 * s.rhs2), ?_⟩, ?_, ?_⟩⟩, hb'⟩
    · unfold symmlqTest
      simp only [hd]
    · unfold symmlqTest
      simp only [hd, hr.snprod, hr.beta, Fl.fin_mul, Fl.fin_abs, abs_zero]
      change Fl.div _ _ = _
      simp [Fl.div]
    · unfold symmlqTest
      simp only [hr.tnorm, ht0, Fl.fin_sqrt le_rfl]

theorem symmlqStart_exact (q : SymmlqProblem E) (hA : ∀ u v, ⟪q.A u, v⟫ = ⟪u, q.A v⟫) (hb : q.b ≠ 0) (he : 0 < q.eps)
    (he3 : 0 ≤ q.eps3) :
    (symmlqStart q.obj q.kw (Vec.op q.A) (.fin q.b)).2 = (.fin ‖q.b‖, false) ∧
    QGood q (symmlqStart q.obj q.kw (Vec.op q.A) (.fin q.b)).1 ∧
    QRel q 1 (symmlqStart q.obj q.kw (Vec.op q.A) (.fin q.b)).1 (SymmlqMath.init q.B q.b) ∧
    (symmlqStart q.obj q.kw (Vec.op q.A) (.fin q.b)).1.gmax = .fin (|⟪q.v1, q.B q.v1⟫| + q.eps) ∧
    (symmlqStart q.obj q.kw (Vec.op q.A) (.fin q.b)).1.gmin = .fin (|⟪q.v1, q.B q.v1⟫| + q.eps) ∧
    (q.eps < (SymmlqMath.init q.B q.b).beta → (symmlqStart q.obj q.kw (Vec.op q.A) (.fin q.b)).1.istop = 0) := by
  have hn : ‖q.b‖ ≠ 0 := norm_ne_zero_iff.2 hb
  have hpr : ∀ z, applyPrecon q.obj.precon z = z := fun _ => rfl
  have hpn : q.obj.precon = none := rfl
  have hop : q.obj.op = Vec.op q.A := rfl
  have hpos : 0 < (⟪q.b, q.b⟫ : ℝ) := by rw [real_inner_self_eq_norm_mul_norm]; exact mul_self_pos.2 hn
  have hnn : ∀ r : E, lt (Fl.fin ⟪r, r⟫) (lit 0) = false := by
    intro r
    rw [← Bool.not_eq_true, Fl.lit_eq, Fl.fin_lt, not_lt, Rat.cast_zero]
    exact real_inner_self_nonneg
  have hent : symmlqEntry q.obj q.kw (Vec.fin q.b) = (0, false) := by
    have hf : feq (Fl.fin ⟪q.b, q.b⟫) (lit 0) = false := by
      rw [Fl.feq_zero]; simp [hb]
    unfold symmlqEntry
    simp only [hpr, Vec.fin_dot, hf, hnn, Bool.false_eq_true, if_false, hpn]
    simp only [applyPrecon, Vec.fin_dot, hf, hnn, Bool.false_eq_true, if_false]
  have e1 : sqrt (dot (Vec.fin q.b) (Vec.fin q.b)) = Fl.fin ‖q.b‖ := by
    rw [Vec.fin_dot, Fl.fin_sqrt real_inner_self_nonneg, real_inner_self_eq_norm_mul_norm, Real.sqrt_mul_self (norm_nonneg _)]
  have e2 : smul (lit 1 / Fl.fin ‖q.b‖) (Vec.fin q.b) = .fin q.v1 := by
    rw [Fl.lit_eq, Fl.fin_div _ hn, Vec.fin_smul]; simp [SymmlqProblem.v1]
  have hbv : q.b = ‖q.b‖ • q.v1 := by rw [SymmlqProblem.v1, smul_smul]; field_simp; simp
  have hvv : ⟪q.v1, q.v1⟫ = 1 := by
    rw [SymmlqProblem.v1, inner_smul_left, inner_smul_right, real_inner_self_eq_norm_mul_norm]; simp; field_simp
  have e3 : symmlqUnsym q.kw (Vec.op q.A (Vec.fin q.v1)) (Vec.fin q.v1) (Vec.op q.A (Vec.op q.A (Vec.fin q.v1))) = false := by
    unfold symmlqUnsym
    simp only [Vec.op_fin, Vec.fin_dot, ← hA q.v1 (q.A q.v1), Fl.fin_sub, sub_self, Fl.fin_abs, abs_zero]
    have h1 : q.kw.eps = Fl.fin q.eps := rfl
    have h2 : q.kw.eps3 = Fl.fin q.eps3 := rfl
    rw [h1, h2, Fl.fin_add, Fl.fin_mul]
    unfold gt
    rw [← Bool.not_eq_true, Fl.fin_lt, not_lt]
    exact mul_nonneg (add_nonneg real_inner_self_nonneg he.le) he3
  have e4 : Vec.fin (q.B q.v1) - smul (dot (Vec.fin q.v1) (Vec.fin (q.B q.v1)) / Fl.fin ‖q.b‖) (Vec.fin q.b)
      = .fin (SymmlqMath.q0 q.B q.b) := by
    rw [Vec.fin_dot, Fl.fin_div _ hn, Vec.fin_smul, Vec.fin_sub]
    unfold SymmlqMath.q0
    change Vec.fin (q.B q.v1 - _) = Vec.fin (q.B q.v1 - (⟪q.v1, q.B q.v1⟫ : ℝ) • q.v1)
    congr 2
    rw [SymmlqProblem.v1, smul_smul]
    congr 1
    ring
  have e5 : ⟪q.v1, SymmlqMath.q0 q.B q.b⟫ = 0 := by
    change ⟪q.v1, q.B q.v1 - (⟪q.v1, q.B q.v1⟫ : ℝ) • q.v1⟫ = 0
    rw [inner_sub_right, inner_smul_right, hvv]; ring
  have e6 : Vec.fin (SymmlqMath.q0 q.B q.b) -
      smul (dot (Vec.fin q.v1) (Vec.fin (SymmlqMath.q0 q.B q.b)) / dot (Vec.fin q.v1) (Vec.fin q.v1)) (Vec.fin q.v1)
      = .fin (SymmlqMath.q0 q.B q.b) := by
    rw [Vec.fin_dot, Vec.fin_dot, e5, hvv, Fl.fin_div _ one_ne_zero, Vec.fin_smul, Vec.fin_sub]; simp
  have e7 : sqrt (Fl.fin ⟪SymmlqMath.q0 q.B q.b, SymmlqMath.q0 q.B q.b⟫) = .fin (SymmlqMath.init q.B q.b).beta :=
    Fl.fin_sqrt real_inner_self_nonneg
  unfold symmlqStart
  simp only [hent, hpr, e1, e2, hop, e3, q.shift_exact, e4, e6, Bool.and_false, Bool.false_eq_true, if_false]
  simp only [Vec.fin_dot, e7, hnn, Bool.false_eq_true, if_false, Fl.fin_mul, Fl.fin_add, Fl.fin_abs]
  have hke : q.kw.eps = Fl.fin q.eps := rfl
  refine ⟨trivial, ⟨⟨1, SymmlqMath.init q.B q.b, _, _, ?gR, SymmlqMath.inv_init q.B q.b hb, ?ga, ?gb, ?gc⟩, rfl⟩, ?gR, ?gd, ?ge, ?gf⟩
  case ga =>
    simp only
    split
    · right; rfl
    · left; rfl
  case gb =>
    simp only [hke, Fl.fin_le, true_and]
    constructor
    · intro h
      by_contra hc
      rw [if_neg hc] at h
      norm_num at h
    · intro h; rw [if_pos h]
  case gc =>
    intro _
    refine ⟨rfl, ?_, rfl, rfl, rfl⟩
    change (⟪q.v1, q.B q.v1⟫ : ℝ) * _ = _
    have : ⟪q.b, q.B q.b⟫ = ⟪‖q.b‖ • q.v1, q.B (‖q.b‖ • q.v1)⟫ := by rw [← hbv]
    rw [this, map_smul, inner_smul_left, inner_smul_right]
    simp; ring
  case gd =>
    simp only [hke, Fl.fin_add]
  case ge =>
    simp only [hke, Fl.fin_add]
  case gf =>
    intro h
    simp only [hke]
    rw [if_neg (by rw [Fl.fin_le, not_le]; exact h)]
  case gR =>
    refine
      { xb := ⟨0, ?_, ?_⟩, w := ?_, y := rfl, r2 := rfl, ob := ⟨‖q.b‖, hn, rfl, congrArg Vec.fin hbv⟩, beta := rfl, rhs1 := rfl,
        rhs2 := ?_, tnorm := rfl, gbar := rfl, dbar := ?_, snprod := ?_, ynorm2 := ?_,
        gmm := ⟨|⟪q.v1, q.B q.v1⟫| + q.eps, |⟪q.v1, q.B q.v1⟫| + q.eps, by positivity, ?_, ?_⟩, nMatvec := rfl }
    · simp
    · simp [SymmlqMath.init]
    · simp [SymmlqMath.init, SymmlqProblem.v1]
    · simp [SymmlqMath.init]
    · simp only [SymmlqMath.init, one_mul]
    · simp [SymmlqMath.init]
    · simp [SymmlqMath.init]
    · simp only [hke, Fl.fin_add]
    · simp only [hke, Fl.fin_add]

/-- the end of the computation after a `break` -/
theorem symmlqFinish_exact (q : SymmlqProblem E) (hA : ∀ u v, ⟪q.A u, v⟫ = ⟪u, q.A v⟫) (hb : q.b ≠ 0) (hrt : 0 ≤ q.rtol)
    (he : 0 < q.eps) (s : SymmlqLoop Fl (Vec E)) (hs : QEnd q s) :
    ∃ l d, s.lqDiag = some (l, d) ∧ ∃ (x : E) (a : ℝ) (k : ℕ),
      (symmlqFinish q.obj q.kw (.fin ‖q.b‖) (.fin q.b) s l d).1.x = .fin x ∧
      (symmlqFinish q.obj q.kw (.fin ‖q.b‖) (.fin q.b) s l d).1.residNorm = .fin ‖q.b - q.B x‖ ∧
      (symmlqFinish q.obj q.kw (.fin ‖q.b‖) (.fin q.b) s l d).1.xNorm = .fin ‖x‖ ∧
      (symmlqFinish q.obj q.kw (.fin ‖q.b‖) (.fin q.b) s l d).1.anorm = .fin a ∧
      (symmlqFinish q.obj q.kw (.fin ‖q.b‖) (.fin q.b) s l d).1.nMatvec = k + 1 ∧
      0 < k ∧ (FiniteDimensional ℝ E → ∀ m, Confined q.B q.b m → k ≤ m) ∧
      0 ≤ a ∧ (∀ C, (∀ z, ‖q.B z‖ ≤ C * ‖z‖) → a ^ 2 ≤ k * C ^ 2) ∧
      ((∃ u ∈ krylov q.B q.b k, u ≠ 0 ∧ ∀ z ∈ krylov q.B q.b k, ⟪q.B u, z⟫ = 0) ∨
       ((x ∈ krylov q.B q.b k ∧ ∀ z ∈ krylov q.B q.b k, ⟪q.b - q.B x, z⟫ = 0) ∨
        (x ∈ (krylov q.B q.b (k-1)).map q.B ∧
          ∀ xs, q.B xs = q.b → ∀ z ∈ (krylov q.B q.b (k-1)).map q.B, ‖xs - x‖ ≤ ‖xs - z‖)) ∧
       (s.istop = 1 ∧ ‖q.b - q.B x‖ ≤ q.rtol * a * ‖x‖ ∨ s.istop = 2 ∧ ‖q.b - q.B x‖ ≤ q.eps * a * ‖x‖ ∨
        s.istop = 3 ∧ ‖q.b‖ ≤ q.eps * a * ‖x‖ ∨
        s.istop = 4 ∧ (∃ c, (symmlqFinish q.obj q.kw (.fin ‖q.b‖) (.fin q.b) s l d).1.acond = .fin c ∧ 1 / 10 / q.eps ≤ c) ∨
        s.istop = -1 ∧ ‖q.b - q.B x‖ * |⟪q.b, q.B q.b⟫| ≤ q.eps * ‖q.b‖ ^ 3)) := by
  obtain ⟨k, t, S, Sp, hr, hi, hk1, hT⟩ := hs.ex
  have hn : ‖q.b‖ ≠ 0 := norm_ne_zero_iff.2 hb
  have hB := q.B_symm hA
  have hpr : ∀ z, applyPrecon q.obj.precon z = z := fun _ => rfl
  have hop : q.obj.op = Vec.op q.A := rfl
  obtain ⟨bs, hbs, hx⟩ := hr.xb
  have htn : 0 ≤ t.tnorm := le_trans (sq_nonneg _) hi.tpos
  have hav : ∀ C, (∀ z, ‖q.B z‖ ≤ C * ‖z‖) → Real.sqrt t.tnorm ^ 2 ≤ k * C ^ 2 := by
    intro C hC; rw [Real.sq_sqrt htn]; exact hi.tle C hC
  have hkd : FiniteDimensional ℝ E → ∀ m, Confined q.B q.b m → k ≤ m := fun _ _ hm => hi.le_confined hm
  have hfin : ∀ (l d : Fl) (x : E), (if lt s.cgnorm l then s.x + smul (s.rhs1 / d) s.w else s.x) +
      smul ((if lt s.cgnorm l then s.snprod * (s.rhs1 / d) + s.bstep else s.bstep) / Fl.fin ‖q.b‖) (Vec.fin q.b) = .fin x →
      (symmlqFinish q.obj q.kw (.fin ‖q.b‖) (.fin q.b) s l d).1 =
        { x := .fin x, residNorm := .fin ‖q.b - q.B x‖, xNorm := .fin ‖x‖, nMatvec := k + 1, acond := s.acond,
          anorm := s.anorm, iterates := s.iterates } := by
    intro l d x h
    unfold symmlqFinish
    simp only [hpr, h, hop, q.shift_exact, Vec.fin_sub, Vec.fin_norm, hr.nMatvec]
  have hlq : s.x + smul (s.bstep / Fl.fin ‖q.b‖) (Vec.fin q.b) = .fin t.xL := by
    rw [hx, hbs, Fl.fin_div _ hn, Vec.fin_smul, Vec.fin_add, SymmlqProblem.v1, smul_smul]
    congr 1
    have : bs * (1 / ‖q.b‖) = bs / ‖q.b‖ := by ring
    rw [this]; abel
  rcases hT with ⟨d, cg, c, hT, hstop⟩ | ⟨hg, ⟨l, hl⟩, hcg, han⟩
  · have hcgx : s.x + smul (s.rhs1 / Fl.fin d) s.w + smul ((s.snprod * (s.rhs1 / Fl.fin d) + s.bstep) / Fl.fin ‖q.b‖) (Vec.fin q.b) =
        .fin (t.xL + (t.rhs1 / d) • t.wb) := by
      rw [hx, hbs, hr.rhs1, hr.w, hr.snprod, Fl.fin_div _ hT.dne, Fl.fin_mul, Fl.fin_add, Fl.fin_div _ hn, Vec.fin_smul,
        Vec.fin_smul, Vec.fin_add, Vec.fin_add, SymmlqProblem.v1]
      congr 1
      have : (t.snprod * (t.rhs1 / d) + bs) / ‖q.b‖ = t.snprod * (t.rhs1 / d) * (1 / ‖q.b‖) + bs * (1 / ‖q.b‖) := by ring
      rw [this]; module
    refine ⟨_, _, hT.lq, ?_⟩
    by_cases hcmp : cg < ‖q.b - q.B t.xL‖
    · have h1 : lt s.cgnorm (Fl.fin ‖q.b - q.B t.xL‖) = true := by rw [hT.cgnorm, Fl.fin_lt]; exact hcmp
      rw [hfin _ (.fin d) (t.xL + (t.rhs1 / d) • t.wb) (by rw [if_pos h1, if_pos h1]; exact hcgx)]
      refine ⟨_, _, k, rfl, rfl, rfl, hT.anorm, rfl, hi.kpos, hkd, Real.sqrt_nonneg _, hav, ?_⟩
      by_cases hg : t.gbar = 0
      · exact Or.inl ⟨_, hi.singular hg⟩
      · right
        rw [hT.deq hg]
        have hcgn : ‖q.b - q.B (t.xL + (t.rhs1 / t.gbar) • t.wb)‖ = cg := by rw [hi.cg_norm hg, hT.cgd, hT.deq hg]
        have hge := hi.cg_ge hB (t.rhs1 / t.gbar)
        refine ⟨Or.inl (hi.cg_galerkin hg), ?_⟩
        rw [hcgn]
        have hsq := Real.sqrt_nonneg t.tnorm
        have hm : ∀ e : ℝ, 0 ≤ e → Real.sqrt t.tnorm * ‖t.xL‖ * e ≤ e * Real.sqrt t.tnorm * ‖t.xL + (t.rhs1 / t.gbar) • t.wb‖ := by
          intro e he0
          have := mul_le_mul_of_nonneg_left hge (mul_nonneg he0 hsq)
          linarith
        rcases hstop with ⟨hc, h⟩ | ⟨hc, h⟩ | ⟨hc, h⟩ | ⟨hc, h⟩ | ⟨hc, h, h'⟩
        · exact Or.inl ⟨hc, h.trans (hm _ hrt)⟩
        · exact Or.inr (Or.inl ⟨hc, h.trans (hm _ he.le)⟩)
        · exact Or.inr (Or.inr (Or.inl ⟨hc, h.trans (hm _ he.le)⟩))
        · exact Or.inr (Or.inr (Or.inr (Or.inl ⟨hc, c, hT.acond, h⟩)))
        · right; right; right; right; refine ⟨hc, ?_⟩
          obtain ⟨h2, h3, h4, h5, h6⟩ := hk1 h
          rw [← h3, hT.cgd, hT.deq hg, h6, one_mul, abs_mul, abs_of_nonneg (sq_nonneg ‖q.b‖)]
          have hgp := abs_pos.2 hg
          have : ‖q.b‖ * t.beta / |t.gbar| * (|t.gbar| * ‖q.b‖ ^ 2) = t.beta * ‖q.b‖ ^ 3 := by field_simp
          rw [this]
          exact mul_le_mul_of_nonneg_right h' (by positivity)
    · have h1 : ¬ lt s.cgnorm (Fl.fin ‖q.b - q.B t.xL‖) = true := by rw [hT.cgnorm, Fl.fin_lt]; exact hcmp
      rw [hfin _ (.fin d) t.xL (by rw [if_neg h1, if_neg h1]; exact hlq)]
      refine ⟨_, _, k, rfl, rfl, rfl, hT.anorm, rfl, hi.kpos, hkd, Real.sqrt_nonneg _, hav, ?_⟩
      by_cases hg : t.gbar = 0
      · exact Or.inl ⟨_, hi.singular hg⟩
      · right
        refine ⟨Or.inr (hi.lq_error hB), ?_⟩
        have hle := not_lt.1 hcmp
        rcases hstop with ⟨hc, h⟩ | ⟨hc, h⟩ | ⟨hc, h⟩ | ⟨hc, h⟩ | ⟨hc, h, h'⟩
        · exact Or.inl ⟨hc, by linarith⟩
        · exact Or.inr (Or.inl ⟨hc, by linarith⟩)
        · exact Or.inr (Or.inr (Or.inl ⟨hc, by linarith⟩))
        · exact Or.inr (Or.inr (Or.inr (Or.inl ⟨hc, c, hT.acond, h⟩)))
        · right; right; right; right; refine ⟨hc, ?_⟩
          obtain ⟨h2, h3, h4, h5, h6⟩ := hk1 h
          have hgp := abs_pos.2 hg
          rw [hT.cgd, hT.deq hg, h6, one_mul] at hle
          rw [← h3, abs_mul, abs_of_nonneg (sq_nonneg ‖q.b‖)]
          have h7 : ‖q.b - q.B t.xL‖ * |t.gbar| ≤ ‖q.b‖ * t.beta := by rwa [le_div_iff₀ hgp] at hle
          have h8 : ‖q.b - q.B t.xL‖ * (|t.gbar| * ‖q.b‖ ^ 2) ≤ t.beta * ‖q.b‖ ^ 3 := by
            have := mul_le_mul_of_nonneg_right h7 (sq_nonneg ‖q.b‖)
            linarith
          exact h8.trans (mul_le_mul_of_nonneg_right h' (by positivity))
  · have h1 : ¬ lt s.cgnorm l = true := by rw [hcg]; simp
    refine ⟨l, _, hl, ?_⟩
    rw [hfin _ (.fin 0) t.xL (by rw [if_neg h1, if_neg h1]; exact hlq)]
    exact ⟨_, _, k, rfl, rfl, rfl, han, rfl, hi.kpos, hkd, Real.sqrt_nonneg _, hav, Or.inl ⟨_, hi.singular hg⟩⟩

end Verif.Solver
