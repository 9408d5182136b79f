import Verif.Solver.LSMR
import Verif.Solver.LSQRProps
import Verif.Solver.LSQRExact

/-!
# Properties of `symOrtho` and LSMR: C39 and C40
-/

namespace Verif.Solver
open Scalar Vect
open scoped RealInnerProductSpace

variable {S U V : Type} [Scalar S] [Vect S U] [Vect S V]

/-! ### C39 -/

theorem sgn_fin (a : ℝ) : (sgn (Fl.fin a) : Fl) = .fin (if a < 0 then -1 else 1) := by
  unfold sgn
  by_cases h : a < 0
  · simp [h]
  · simp [h]

/-- the square root in the rotation, for a quotient of absolute value at most 1 -/
theorem symOrtho_aux {a b : ℝ} (ha : a ≠ 0) :
    Real.sqrt (1 + b / a * (b / a)) = Real.sqrt (a * a + b * b) / |a| ∧ 0 < Real.sqrt (a * a + b * b) := by
  have hp : 0 < a * a + b * b := add_pos_of_pos_of_nonneg (mul_self_pos.2 ha) (mul_self_nonneg _)
  refine ⟨?_, Real.sqrt_pos.2 hp⟩
  have h1 : 1 + b / a * (b / a) = (a * a + b * b) / (|a| * |a|) := by
    rw [abs_mul_abs_self]; field_simp
  rw [h1, Real.sqrt_div hp.le, Real.sqrt_mul_self (abs_nonneg _)]

/-- the value of `symOrtho` -/
theorem symOrtho_fin (a b : ℝ) : ∃ c s r, symOrtho (Fl.fin a) (Fl.fin b) = .ok (.fin c, .fin s, .fin r) ∧
    c * c + s * s = 1 ∧ c * a + s * b = r ∧ s * a - c * b = 0 ∧ r = Real.sqrt (a * a + b * b) := by
  have key : ∀ x : ℝ, (if x < 0 then (-1 : ℝ) else 1) * x = |x| ∧ (if x < 0 then (-1 : ℝ) else 1) * (if x < 0 then (-1 : ℝ) else 1) = 1 := by
    intro x
    split_ifs with h
    · exact ⟨by rw [abs_of_neg h]; ring, by ring⟩
    · exact ⟨by rw [abs_of_nonneg (not_lt.1 h)]; ring, by ring⟩
  unfold symOrtho
  by_cases hb : b = 0
  · rw [if_pos ((feq_fin_zero _).2 hb), sgn_fin]
    refine ⟨_, 0, |a|, by rw [Fl.lit_eq, Fl.fin_abs, Rat.cast_zero], ?_, ?_, ?_, ?_⟩
    · rw [(key a).2]; ring
    · rw [(key a).1]; ring
    · rw [hb]; ring
    · rw [hb, mul_zero, add_zero, Real.sqrt_mul_self_eq_abs]
  · rw [if_neg (by rw [feq_fin_zero]; exact hb)]
    by_cases ha : a = 0
    · rw [if_pos ((feq_fin_zero _).2 ha), sgn_fin]
      refine ⟨0, _, |b|, by rw [Fl.lit_eq, Fl.fin_abs, Rat.cast_zero], ?_, ?_, ?_, ?_⟩
      · rw [(key b).2]; ring
      · rw [(key b).1]; ring
      · rw [ha]; ring
      · rw [ha, mul_zero, zero_add, Real.sqrt_mul_self_eq_abs]
    · rw [if_neg (by rw [feq_fin_zero]; exact ha)]
      have hab := abs_pos.2 ha
      have hbb := abs_pos.2 hb
      by_cases hlt : |a| < |b|
      · rw [if_pos (by simp [Scalar.gt, hlt])]
        obtain ⟨h1, h2⟩ := symOrtho_aux (b := a) hb
        have hq : 0 < Real.sqrt (1 + a / b * (a / b)) := by rw [h1]; positivity
        obtain ⟨k1, k2⟩ := key b
        set σ : ℝ := if b < 0 then -1 else 1 with hσ
        have hσ0 : σ ≠ 0 := by intro h; rw [h] at k2; norm_num at k2
        simp only [pydiv_fin _ hb, ok_bind, sgn_fin, Fl.lit_eq, Fl.fin_mul, Fl.fin_add, Rat.cast_one, ← hσ]
        rw [Fl.fin_sqrt (by nlinarith [mul_self_nonneg (a / b)]), pydiv_fin _ hq.ne', ok_bind, pydiv_fin _ (div_ne_zero hσ0 hq.ne'), ok_bind]
        rw [h1]
        set R := Real.sqrt (b * b + a * a)
        have hR : R * R = b * b + a * a := Real.mul_self_sqrt (by nlinarith [mul_self_nonneg a, mul_self_nonneg b])
        have hs : σ / (R / |b|) = b / R := by
          rw [← k1]
          have : σ * b ≠ 0 := mul_ne_zero hσ0 hb
          field_simp
          linear_combination k2
        rw [hs]
        have hR0 : R ≠ 0 := h2.ne'
        refine ⟨_, _, _, rfl, ?_, ?_, ?_, ?_⟩
        · field_simp; linear_combination -hR
        · field_simp; linear_combination -hR
        · field_simp; ring
        · rw [div_div_eq_mul_div, mul_div_cancel_left₀ _ hb]
          change Real.sqrt _ = _
          rw [add_comm]
      · rw [if_neg (by simp only [Scalar.gt, Fl.fin_abs, Fl.fin_lt]; exact hlt)]
        obtain ⟨h1, h2⟩ := symOrtho_aux (b := b) ha
        have hq : 0 < Real.sqrt (1 + b / a * (b / a)) := by rw [h1]; positivity
        obtain ⟨k1, k2⟩ := key a
        set σ : ℝ := if a < 0 then -1 else 1 with hσ
        have hσ0 : σ ≠ 0 := by intro h; rw [h] at k2; norm_num at k2
        simp only [pydiv_fin _ ha, ok_bind, sgn_fin, Fl.lit_eq, Fl.fin_mul, Fl.fin_add, Rat.cast_one, ← hσ]
        rw [Fl.fin_sqrt (by nlinarith [mul_self_nonneg (b / a)]), pydiv_fin _ hq.ne', ok_bind, pydiv_fin _ (div_ne_zero hσ0 hq.ne'), ok_bind]
        rw [h1]
        set R := Real.sqrt (a * a + b * b)
        have hR : R * R = a * a + b * b := Real.mul_self_sqrt (by nlinarith [mul_self_nonneg a, mul_self_nonneg b])
        have hs : σ / (R / |a|) = a / R := by
          rw [← k1]
          have : σ * a ≠ 0 := mul_ne_zero hσ0 ha
          field_simp
          linear_combination k2
        rw [hs]
        have hR0 : R ≠ 0 := h2.ne'
        refine ⟨_, _, _, rfl, ?_, ?_, ?_, ?_⟩
        · field_simp; linear_combination -hR
        · field_simp; linear_combination -hR
        · field_simp; ring
        · rw [div_div_eq_mul_div, mul_div_cancel_left₀ _ ha]

/-- **C39.** In exact arithmetic `symOrtho(a, b)` returns, for all real `a` and `b` (also zeros and negative numbers), a rotation that
maps `(a, b)` to `(r, 0)` with `r = sqrt(a^2 + b^2)`. -/
theorem C39_symOrtho (a b : ℝ) : ∃ c s r : ℝ, symOrtho (Fl.fin a) (Fl.fin b) = .ok (.fin c, .fin s, .fin r) ∧
    c ^ 2 + s ^ 2 = 1 ∧ c * a + s * b = r ∧ s * a - c * b = 0 ∧ r = Real.sqrt (a ^ 2 + b ^ 2) := by
  obtain ⟨c, s, r, h, h1, h2, h3, h4⟩ := symOrtho_fin a b
  exact ⟨c, s, r, h, by linarith [sq c, sq s, h1], h2, h3, by rw [h4, sq, sq]⟩

/-- a rotation with both arguments nonzero, by Pythagoras -/
example : ∃ c s : ℝ, symOrtho (Fl.fin (-3)) (Fl.fin 4) = .ok (.fin c, .fin s, .fin 5) ∧ c = -3/5 ∧ s = 4/5 := by
  obtain ⟨c, s, r, h, h1, h2, h3, h4⟩ := C39_symOrtho (-3) 4
  have hr : r = 5 := by
    rw [h4, show ((-3:ℝ)^2 + 4^2) = 5^2 by norm_num, Real.sqrt_sq (by norm_num)]
  subst hr
  refine ⟨c, s, h, by linarith, by linarith⟩

/-! ### Specification of the stopping logic of LSMR -/

/-- The documented order of the stopping tests for the quantities of the last iteration, computed from the returned values and
the norm of the right-hand side. -/
structure LsmrReason (kw : LsmrKw S U V) (lim : Int) (normb : S) (res : LsmrRes S V) (test1 test2 test3 t1 rtol ctol : S)
    (direct : Bool) : Prop where
  h1 : test1 = res.normr / normb
  h2 : test2 = res.normar / (res.normA * res.normr)
  h3 : test3 = lit 1 / res.condA
  h4 : t1 = test1 / (lit 1 + res.normA * res.normx / normb)
  h5 : rtol = kw.btol + kw.atol * res.normA * res.normx / normb
  h6 : ctol = if gt kw.conlim (lit 0) then lit 1 / kw.conlim else lit 0
  /-- the test on the direct error, over the last `window` iterations -/
  h8 : direct = true → kw.window < res.itn ∧
    ∃ trnc nrg : S, res.dirErrors.getLast? = some (trnc / nrg) ∧ lt trnc (kw.etol * nrg) = true
  reason : res.istop =
    if le test1 rtol then 1
    else if le test2 kw.atol then 2
    else if le test3 ctol then 3
    else if le (lit 1 + t1) (lit 1) then 4
    else if le (lit 1 + test2) (lit 1) then 5
    else if le (lit 1 + test3) (lit 1) then 6
    else if lim ≤ (res.itn : Int) then 7
    else if direct then 8 else 0

/-! ### Invariant -/

/-- the effect of an iteration on the counters, the lists and the stopping code -/
structure LsmrStepEff (kw : LsmrKw S U V) (lim : Int) (normb : S) (s t : LsmrLoop S U V) : Prop where
  itn : t.itn = s.itn + 1
  last : ∃ tests, t.istop = lsmrStop kw lim t.itn tests ∧
    lsmrQuantities kw tests.direct normb t.normA t.condA t.normr t.normar t.normx = .ok tests ∧
    (tests.direct = true → kw.window < t.itn ∧
      ∃ trnc nrg : S, t.dirErrors.getLast? = some (trnc / nrg) ∧ lt trnc (kw.etol * nrg) = true)
  normx : t.normx = norm t.x
  resids : t.resids = if kw.storeResids then s.resids ++ [t.normr] else s.resids
  normalEqns : t.normalEqns = if kw.storeResids then s.normalEqns ++ [t.normar] else s.normalEqns
  dirErrors : t.dirErrors.length = s.dirErrors.length + if t.itn > kw.window then 1 else 0
  norms : t.norms.length = s.norms.length + if kw.storeResids then 1 else 0
  iterates : t.iterates = if kw.storeIterates then s.iterates ++ [t.x] else s.iterates
  products : s.products + 1 ≤ t.products ∧ t.products ≤ s.products + 2

theorem lsmrBidiag_products {A : V → U} {AT : U → V} {kw : LsmrKw S U V} {s : LsmrLoop S U V} {r}
    (h : lsmrBidiag A AT kw s = .ok r) :
    s.products + 1 ≤ r.2.2.2.2.2 ∧ r.2.2.2.2.2 ≤ s.products + 2 := by
  unfold lsmrBidiag at h
  obtain ⟨beta, -, h⟩ := except_bind_ok h
  split at h
  · obtain ⟨Nv, -, h⟩ := except_bind_ok h
    obtain ⟨alpha, -, h⟩ := except_bind_ok h
    split at h <;> cases h <;> exact ⟨by simp, by simp⟩
  · cases h; exact ⟨by simp, by simp⟩

theorem lsmrStep_eff {A : V → U} {AT : U → V} {kw : LsmrKw S U V} {lim : Int} {normb : S} {s t : LsmrLoop S U V}
    (h : lsmrStep A AT kw lim normb s = .ok t) : LsmrStepEff kw lim normb s t := by
  unfold lsmrStep at h
  obtain ⟨⟨Mu, Nv, v, alpha, beta, products⟩, hbi, h⟩ := except_bind_ok h
  obtain ⟨r, -, h⟩ := except_bind_ok h
  obtain ⟨⟨hbar, x, h'⟩, -, h⟩ := except_bind_ok h
  obtain ⟨k, -, h⟩ := except_bind_ok h
  obtain ⟨⟨betadd, thetatilde, rhodold, betad, tautildeold, d, normr⟩, -, h⟩ := except_bind_ok h
  obtain ⟨condA, -, h⟩ := except_bind_ok h
  obtain ⟨tests, ht, h⟩ := except_bind_ok h
  cases h
  have hp := lsmrBidiag_products hbi
  refine ⟨rfl, ⟨tests, rfl, ?_, ?_⟩, rfl, rfl, rfl, ?_, ?_, rfl, hp⟩
  · have hd : tests.direct = (decide (s.itn + 1 > kw.window) &&
        lt (normList (s.dErr.set k r.zeta)) (kw.etol * sqrt (s.xNrgNorm2 + r.zeta * r.zeta))) := by
      unfold lsmrQuantities at ht
      obtain ⟨_, -, ht⟩ := except_bind_ok ht
      obtain ⟨_, -, ht⟩ := except_bind_ok ht
      obtain ⟨_, -, ht⟩ := except_bind_ok ht
      cases ht; rfl
    rw [hd]; exact ht
  · intro hd
    unfold lsmrQuantities at ht
    obtain ⟨_, -, ht⟩ := except_bind_ok ht
    obtain ⟨_, -, ht⟩ := except_bind_ok ht
    obtain ⟨_, -, ht⟩ := except_bind_ok ht
    cases ht
    simp only [Bool.and_eq_true, decide_eq_true_eq] at hd
    refine ⟨hd.1, normList (s.dErr.set k r.zeta), sqrt (s.xNrgNorm2 + r.zeta * r.zeta), ?_, hd.2⟩
    simp only [hd.1, if_true, List.getLast?_append, List.getLast?_singleton, Option.some_or]
  · simp only
    split <;> simp
  · simp only
    split <;> simp

/-- invariant of the loop for every arithmetic -/
structure LsmrInv (kw : LsmrKw S U V) (lim : Int) (normb : S) (s : LsmrLoop S U V) : Prop where
  le : (s.itn : Int) ≤ max 0 lim
  stop : (s.itn = 0 ∧ s.istop = 0 ∧ s.x = zeros ∧ s.normr = normb) ∨ (0 < s.itn ∧ s.normx = norm s.x ∧
    ∃ tests, s.istop = lsmrStop kw lim s.itn tests ∧
    lsmrQuantities kw tests.direct normb s.normA s.condA s.normr s.normar s.normx = .ok tests ∧
    (tests.direct = true → kw.window < s.itn ∧
      ∃ trnc nrg : S, s.dirErrors.getLast? = some (trnc / nrg) ∧ lt trnc (kw.etol * nrg) = true))
  resids : if kw.storeResids then s.resids.length = s.itn + 1 ∧ s.resids.head? = some normb ∧ s.resids.getLast? = some s.normr
    else s.resids = []
  normalEqns : if kw.storeResids then s.normalEqns.length = s.itn + 1 ∧ s.normalEqns.getLast? = some s.normar
    else s.normalEqns = []
  iterates : if kw.storeIterates then
      s.iterates.length = s.itn + 1 ∧ s.iterates.head? = some zeros ∧ s.iterates.getLast? = some s.x
    else s.iterates = []
  dirErrors : s.dirErrors.length = s.itn - kw.window
  norms : s.norms.length = if kw.storeResids then s.itn else 0
  products : s.products ≤ 2 * s.itn + 1

theorem lsmrStep_inv {A : V → U} {AT : U → V} {kw : LsmrKw S U V} {lim : Int} {normb : S} (s t : LsmrLoop S U V)
    (hs : LsmrInv kw lim normb s) (hc : lsmrCont lim s = true) (h : lsmrStep A AT kw lim normb s = .ok t) :
    LsmrInv kw lim normb t := by
  have e := lsmrStep_eff h
  simp only [lsmrCont, Bool.and_eq_true, decide_eq_true_eq] at hc
  obtain ⟨tests, h1, h2, h3⟩ := e.last
  refine ⟨?_, Or.inr ⟨by rw [e.itn]; omega, e.normx, tests, h1, h2, h3⟩, ?_, ?_, ?_, ?_, ?_, ?_⟩
  · have := e.itn; omega
  · have := hs.resids
    rw [e.resids, e.itn]
    split at this
    · rename_i hk
      obtain ⟨a, b, c⟩ := this
      simp only [hk, if_true, List.length_append, List.length_singleton, a, List.getLast?_append, List.getLast?_singleton,
        Option.some_or, List.head?_append, b, and_self]
    · rename_i hk
      simp [hk, this]
  · have := hs.normalEqns
    rw [e.normalEqns, e.itn]
    split at this
    · rename_i hk
      simp only [hk, if_true, List.length_append, List.length_singleton, this.1, List.getLast?_append, List.getLast?_singleton,
        Option.some_or, and_self]
    · rename_i hk
      simp [hk, this]
  · have := hs.iterates
    rw [e.iterates, e.itn]
    split at this
    · rename_i hk
      obtain ⟨a, b, c⟩ := this
      simp only [hk, if_true, List.length_append, List.length_singleton, a, List.getLast?_append, List.getLast?_singleton,
        Option.some_or, List.head?_append, b, and_self]
    · rename_i hk
      simp [hk, this]
  · rw [e.dirErrors, hs.dirErrors, e.itn]
    split <;> omega
  · rw [e.norms, hs.norms, e.itn]
    split <;> rfl
  · have := hs.products
    have := e.products
    rw [e.itn]; omega

/-- the variables before the loop -/
theorem lsmrInit_start {AT : U → V} {kw : LsmrKw S U V} {b : U} {s : LsmrLoop S U V} (h : lsmrInit AT kw b = .ok s) :
    ∃ Mu Nv v alpha p, s = lsmrStart kw (sqrt (dot (applyPrecon kw.M b) b)) Mu Nv v alpha p ∧ p ≤ 1 := by
  unfold lsmrInit at h
  obtain ⟨beta, hb, h⟩ := except_bind_ok h
  have hbeta : beta = sqrt (dot (applyPrecon kw.M b) b) := by
    unfold pysqrt at hb
    split at hb <;> cases hb
    rfl
  rw [← hbeta]
  split at h
  · obtain ⟨alpha, ha, h⟩ := except_bind_ok h
    split at h <;> cases h <;> exact ⟨_, _, _, _, _, rfl, by simp⟩
  · cases h; exact ⟨_, _, _, _, _, rfl, by simp⟩

omit [Vect S U] in
theorem lsmrFirst_inv (kw : LsmrKw S U V) (lim : Int) (beta : S) (Mu : U) (Nv : Option V) (v : V) (alpha : S) (p : Nat)
    (hp : p ≤ 1) : LsmrInv kw lim beta (lsmrFirst kw (lsmrStart kw beta Mu Nv v alpha p)) := by
  unfold lsmrFirst lsmrStart
  cases hk : kw.storeResids <;> cases hi : kw.storeIterates <;>
    exact ⟨by simp, Or.inl ⟨rfl, rfl, rfl, rfl⟩, by simp [hk], by simp [hk], by simp [hi], by simp, by simp [hk], by simpa using hp⟩

omit [Vect S U] [Vect S V] in
theorem lsmrStop_eq (kw : LsmrKw S U V) (lim : Int) (itn : Nat) (t : LsqrTests S) : lsmrStop kw lim itn t =
    if le t.test1 t.rtol then 1
    else if le t.test2 kw.atol then 2
    else if le t.test3 (lsmrCtol kw.conlim) then 3
    else if le (lit 1 + t.t1) (lit 1) then 4
    else if le (lit 1 + t.test2) (lit 1) then 5
    else if le (lit 1 + t.test3) (lit 1) then 6
    else if lim ≤ (itn : Int) then 7
    else if t.direct then 8 else 0 := rfl

omit [Vect S U] [Vect S V] in
theorem lsmrStop_le (kw : LsmrKw S U V) (lim : Int) (itn : Nat) (t : LsqrTests S) : lsmrStop kw lim itn t ≤ 8 := by
  rw [lsmrStop_eq]
  split_ifs <;> omega

omit [Vect S U] [Vect S V] in
theorem lsmrStop_seven (kw : LsmrKw S U V) (lim : Int) (itn : Nat) (t : LsqrTests S) (h : lsmrStop kw lim itn t = 7) :
    lim ≤ itn := by
  rw [lsmrStop_eq] at h
  split_ifs at h <;> omega

omit [Vect S U] [Vect S V] in
theorem lsmrStop_zero (kw : LsmrKw S U V) (lim : Int) (itn : Nat) (t : LsqrTests S) (h : lsmrStop kw lim itn t = 0) :
    (itn : Int) < lim := by
  rw [lsmrStop_eq] at h
  split_ifs at h; omega

/-- the two ways in which `solve` returns -/
theorem lsmrSolve_cases {A : V → U} {AT : U → V} {m n : Nat} {b : U} {kw : LsmrKw S U V} {selfX : Option V} {res : LsmrRes S V}
    {s : LsmrLoop S U V} (h : lsmrSolve A AT m n b kw selfX = .ok (res, s)) :
    (res = lsmrResult selfX s ∧ feq s.normar (lit 0) = true ∧
      ∃ Mu Nv v alpha p, s = lsmrStart kw (sqrt (dot (applyPrecon kw.M b) b)) Mu Nv v alpha p ∧ p ≤ 1) ∨
    (res = lsmrResult (some s.x) s ∧ lsmrCont (lsmrLimit m n kw.itnlim) s = false ∧
      LsmrInv kw (lsmrLimit m n kw.itnlim) (sqrt (dot (applyPrecon kw.M b) b)) s) := by
  unfold lsmrSolve at h
  obtain ⟨s0, h0, h⟩ := except_bind_ok h
  obtain ⟨Mu, Nv, v, alpha, p, hs0, hp⟩ := lsmrInit_start h0
  unfold lsmrMain at h
  split at h
  · rename_i hz
    have h1 : lsmrResult selfX s0 = res ∧ s0 = s := by injection h with h; simpa using h
    obtain ⟨rfl, rfl⟩ := h1
    exact Or.inl ⟨rfl, hz, Mu, Nv, v, alpha, p, hs0, hp⟩
  · obtain ⟨t, ht, h⟩ := except_bind_ok h
    have h1 : lsmrResult (some t.x) t = res ∧ t = s := by injection h with h; simpa using h
    obtain ⟨rfl, rfl⟩ := h1
    have hb : s0.beta = sqrt (dot (applyPrecon kw.M b) b) := by rw [hs0]; rfl
    rw [hb] at ht
    unfold lsmrLoop at ht
    obtain ⟨h2, h3⟩ := exceptLoop_inv (fun s => LsmrInv kw (lsmrLimit m n kw.itnlim) (sqrt (dot (applyPrecon kw.M b) b)) s)
      (fun s t hs hc ht => lsmrStep_inv s t hs hc ht) _ (by rw [hs0]; exact lsmrFirst_inv kw _ _ Mu Nv v alpha p hp) t ht
    exact Or.inr ⟨rfl, h3, h2⟩

omit [Vect S U] [Vect S V] in
theorem lsmrQuantities_ok {kw : LsmrKw S U V} {direct : Bool} {normb normA condA normr normar normx : S} {t : LsqrTests S}
    (h : lsmrQuantities kw direct normb normA condA normr normar normx = .ok t) :
    t.test1 = normr / normb ∧ t.test2 = normar / (normA * normr) ∧ t.test3 = lit 1 / condA ∧
    t.t1 = t.test1 / (lit 1 + normA * normx / normb) ∧ t.rtol = kw.btol + kw.atol * normA * normx / normb := by
  unfold lsmrQuantities at h
  obtain ⟨test1, h1, h⟩ := except_bind_ok h
  obtain ⟨test2, h2, h⟩ := except_bind_ok h
  obtain ⟨test3, h3, h⟩ := except_bind_ok h
  cases h
  exact ⟨(pydiv_ok h1).1, (pydiv_ok h2).1, (pydiv_ok h3).1, rfl, rfl⟩

/-! ### C40 -/

/-- **C40 (partial).** For every arithmetic, operator, preconditioners, right-hand side and keywords for which `solve` returns: the
number of iterations is at most the limit (`itnlim`, or `min(m, n)` if that is `None`); `istop` is at most 8; it is 0 exactly if no
iteration was made, and then `x` is zero and the norm of `A'b` is zero or the limit is not positive; otherwise it is the first
reason in the documented order, for the returned quantities; it is 7 only if the limit was reached; `normx` is `norm(x)`; if
iterations were made, `self.x` is the returned `x` and the lists have one entry per iterate; at most `2 itn + 1` products were made.

Missing from the full property: that `solve` returns (`C40_identity_raises`), and `self.x` on the early exit
(`C40_selfX_stale`). -/
theorem C40_status_partial (A : V → U) (AT : U → V) (m n : Nat) (b : U) (kw : LsmrKw S U V) (selfX : Option V) (res : LsmrRes S V)
    (s : LsmrLoop S U V) (h : lsmrSolve A AT m n b kw selfX = .ok (res, s)) :
    (res.itn : Int) ≤ max 0 (kw.itnlim.getD (min m n : Nat)) ∧
    res.istop ≤ 8 ∧
    (res.istop = 0 ↔ res.itn = 0) ∧
    (res.istop = 0 → res.x = zeros ∧ res.normr = sqrt (dot (applyPrecon kw.M b) b) ∧
      (feq res.normar (lit 0) = true ∨ (kw.itnlim.getD (min m n : Nat)) ≤ 0)) ∧
    (res.istop ≠ 0 → ∃ test1 test2 test3 t1 rtol ctol direct,
      LsmrReason kw (kw.itnlim.getD (min m n : Nat)) (sqrt (dot (applyPrecon kw.M b) b)) res
        test1 test2 test3 t1 rtol ctol direct) ∧
    (res.istop = 7 → (res.itn : Int) = kw.itnlim.getD (min m n : Nat)) ∧
    (0 < res.itn → res.normx = norm res.x ∧ res.selfX = some res.x) ∧
    (res.selfX = some res.x ∨ (res.selfX = selfX ∧ feq res.normar (lit 0) = true ∧ res.itn = 0)) ∧
    (0 < res.itn → if kw.storeResids then
       res.resids.length = res.itn + 1 ∧ res.resids.head? = some (sqrt (dot (applyPrecon kw.M b) b)) ∧
       res.resids.getLast? = some res.normr ∧ res.normalEqns.length = res.itn + 1 ∧ res.normalEqns.getLast? = some res.normar ∧
       res.norms.length = res.itn
     else res.resids = [] ∧ res.normalEqns = [] ∧ res.norms = []) ∧
    (if kw.storeIterates then
       res.iterates.length = res.itn + 1 ∧ res.iterates.head? = some zeros ∧ res.iterates.getLast? = some res.x
     else res.iterates = []) ∧
    res.dirErrors.length = res.itn - kw.window ∧ s.products ≤ 2 * res.itn + 1 := by
  have hlim : (kw.itnlim.getD (min m n : Nat)) = lsmrLimit m n kw.itnlim := rfl
  simp only [hlim]
  rcases lsmrSolve_cases h with ⟨rfl, hz, Mu, Nv, v, alpha, p, rfl, hp⟩ | ⟨rfl, hc, hi⟩
  · refine ⟨by simp [lsmrResult, lsmrStart], by simp [lsmrResult, lsmrStart], by simp [lsmrResult, lsmrStart],
      fun _ => ⟨rfl, rfl, Or.inl hz⟩, fun h => absurd rfl h, fun h => by simp [lsmrResult, lsmrStart] at h,
      fun h => by simp [lsmrResult, lsmrStart] at h, Or.inr ⟨rfl, hz, rfl⟩, fun h => by simp [lsmrResult, lsmrStart] at h, ?_,
      by simp [lsmrResult, lsmrStart], by simpa [lsmrResult, lsmrStart] using hp⟩
    unfold lsmrResult lsmrStart; cases kw.storeIterates <;> simp
  · have hle : s.istop ≤ 8 := by
      rcases hi.stop with ⟨-, h, -⟩ | ⟨-, -, t, h, -⟩
      · omega
      · rw [h]; exact lsmrStop_le ..
    have h0 : s.istop = 0 → s.itn = 0 ∧ s.x = zeros ∧ s.normr = sqrt (dot (applyPrecon kw.M b) b) ∧ lsmrLimit m n kw.itnlim ≤ 0 := by
      intro h0
      simp only [lsmrCont, h0, decide_true, Bool.true_and, decide_eq_false_iff_not] at hc
      rcases hi.stop with ⟨h, -, h', h''⟩ | ⟨-, -, t, h, -⟩
      · exact ⟨h, h', h'', by omega⟩
      · rw [h0] at h
        exact absurd (lsmrStop_zero _ _ _ _ h.symm) hc
    refine ⟨hi.le, hle, ⟨fun h => (h0 h).1, ?_⟩, ?_, ?_, ?_, ?_, Or.inl rfl, fun _ => ?_, hi.iterates, hi.dirErrors, hi.products⟩
    · intro h
      rcases hi.stop with ⟨-, h', -⟩ | ⟨h', -⟩
      · exact h'
      · exact absurd h (Nat.pos_iff_ne_zero.1 h')
    · intro h
      obtain ⟨-, h1, h2, h3⟩ := h0 h
      exact ⟨h1, h2, Or.inr h3⟩
    · intro h
      rcases hi.stop with ⟨-, h', -⟩ | ⟨-, -, t, h1, h2, h3⟩
      · exact absurd h' h
      · obtain ⟨q1, q2, q3, q4, q5⟩ := lsmrQuantities_ok h2
        exact ⟨t.test1, t.test2, t.test3, t.t1, t.rtol, _, t.direct, q1, q2, q3, q4, q5, rfl, h3, h1.trans (lsmrStop_eq ..)⟩
    · intro h
      rcases hi.stop with ⟨-, h', -⟩ | ⟨hpos, -, t, h1, -⟩
      · change s.istop = 7 at h; omega
      · have h2 := lsmrStop_seven kw _ _ t (h1.symm.trans h)
        have := hi.le
        change (s.itn : Int) = _
        omega
    · intro h
      rcases hi.stop with ⟨h', -⟩ | ⟨-, h', -⟩
      · change 0 < s.itn at h; omega
      · exact ⟨h', rfl⟩
    · have h1 := hi.resids
      have h2 := hi.normalEqns
      have h3 := hi.norms
      split at h1
      · rename_i hk
        simp only [hk, if_true] at h2 h3 ⊢
        exact ⟨h1.1, h1.2.1, h1.2.2, h2.1, h2.2, h3⟩
      · rename_i hk
        simp only [hk] at h2 h3 ⊢
        exact ⟨h1, h2, List.eq_nil_of_length_eq_zero h3⟩

variable {E F : Type} [NormedAddCommGroup E] [InnerProductSpace ℝ E] [NormedAddCommGroup F] [InnerProductSpace ℝ F]

/-- **C40, negative.** For a right-hand side with zero norm (in exact arithmetic: the zero vector) `solve` returns `x = 0` but does not
assign the attribute `x`: it keeps its value from before the call, `None` or the solution of another system. -/
theorem C40_selfX_stale (A : Vec E → Vec F) (AT : Vec F → Vec E) (m n : Nat) (kw : LsmrKw Fl (Vec F) (Vec E)) (hM : kw.M = none)
    (selfX : Option (Vec E)) :
    ∃ res s, lsmrSolve A AT m n (.fin 0) kw selfX = .ok (res, s) ∧ res.x = .fin 0 ∧ res.selfX = selfX := by
  have h0 : lsmrInit AT kw (.fin 0) = .ok (lsmrStart kw (.fin 0) (.fin 0) none zeros (lit 0) 0) := by
    unfold lsmrInit
    have : applyPrecon kw.M (Vec.fin (0 : F)) = .fin 0 := by rw [hM]; rfl
    simp only [this, Vec.fin_dot, inner_zero_left, pysqrt_fin le_rfl, Real.sqrt_zero, ok_bind]
    rw [if_neg (by rw [gt_fin_zero]; exact lt_irrefl _)]
    rfl
  refine ⟨lsmrResult selfX (lsmrStart kw (.fin 0) (.fin 0) none zeros (lit 0) 0), lsmrStart kw (.fin 0) (.fin 0) none zeros (lit 0) 0,
    ?_, rfl, rfl⟩
  · unfold lsmrSolve lsmrMain
    rw [h0, ok_bind, if_pos]
    simp only [lsmrStart, Fl.lit_eq, Rat.cast_zero, Fl.fin_mul, mul_zero]
    have := (feq_fin_zero 0).2 rfl
    simpa using this

end Verif.Solver
