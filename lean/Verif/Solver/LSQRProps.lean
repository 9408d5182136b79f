import Verif.Solver.LSQR
import Verif.Solver.Exact

/-!
# Properties of LSQR: C37
-/

namespace Verif.Solver
open Scalar Vect

variable {S U V : Type} [Scalar S] [Vect S U] [Vect S V]

/-! ### Specification -/

/-- The documented order of the stopping tests for the quantities of the last iteration, computed from the attributes of the
result and the norm of the right-hand side: a smaller code takes precedence, and 8 (the direct error) comes last.  Code 3 is
"the condition estimate exceeds `1/ctol`". -/
structure LsqrReason (kw : LsqrKw S U V) (ctol : S) (lim : Int) (bnorm : S) (res : LsqrRes S V) (test1 test2 test3 t1 rtol : S)
    (direct : Bool) : Prop where
  h1 : test1 = res.r2norm / bnorm
  h2 : test2 = if feq res.Anorm (lit 0) || feq res.r2norm (lit 0) then kw.inf else res.Arnorm / (res.Anorm * res.r2norm)
  h3 : test3 = if feq res.Acond (lit 0) then kw.inf else lit 1 / res.Acond
  h4 : t1 = test1 / (lit 1 + res.Anorm * res.xnorm / bnorm)
  h5 : rtol = kw.btol + kw.atol * res.Anorm * res.xnorm / bnorm
  /-- the test on the direct error, over the last `window` iterations -/
  h8 : direct = true → kw.window < res.itn ∧
    ∃ trnc nrg : S, res.dirErrors.getLast? = some (trnc / nrg) ∧ lt trnc (kw.etol * nrg) = true
  reason : res.istop =
    if le test1 rtol then 1
    else if le test2 kw.atol then 2
    else if le test3 ctol then 3
    else if le (lit 1 + t1) (lit 1) then 4
    else if le (lit 1 + test2) (lit 1) then 5
    else if le (lit 1 + test3) (lit 1) then 6
    else if lim ≤ (res.itn : Int) then 7
    else if direct then 8 else 0

/-! ### Invariant -/

theorem pydiv_ok {a b c : S} (h : pydiv a b = .ok c) : c = a / b ∧ feq b (lit 0) = false := by
  unfold pydiv at h
  split at h <;> [cases h; skip]
  rename_i hb
  injection h with h
  exact ⟨h.symm, by simpa using hb⟩

/-- the effect of an iteration on the counters, the lists and the stopping code -/
structure LsqrStepEff (kw : LsqrKw S U V) (lim : Int) (bnorm : S) (s t : LsqrLoop S U V) : Prop where
  itn : t.itn = s.itn + 1
  bound : s.v ≠ none
  last : ∃ tests, t.last = some tests ∧ t.istop = lsqrStop kw lim t.itn tests ∧
    lsqrQuantities kw tests.direct bnorm t.Anorm t.Acond t.r2norm t.Arnorm t.xnorm = .ok tests ∧
    (tests.direct = true → kw.window < t.itn ∧
      ∃ trnc nrg : S, t.dirErrors.getLast? = some (trnc / nrg) ∧ lt trnc (kw.etol * nrg) = true)
  resids : t.resids = if kw.storeResids then s.resids ++ [t.r2norm] else s.resids
  normalEqns : t.normalEqns = if kw.storeResids then s.normalEqns ++ [t.Arnorm] else s.normalEqns
  dirErrors : t.dirErrors.length = s.dirErrors.length + if t.itn > kw.window then 1 else 0
  iterates : t.iterates = if kw.storeIterates then s.iterates ++ [t.x] else s.iterates
  products : s.products + 1 ≤ t.products ∧ t.products ≤ s.products + 2
  vbound : t.v ≠ none

theorem lsqrBidiag_products {A : V → U} {AT : U → V} {kw : LsqrKw S U V} {s : LsqrLoop S U V} {v : V} {r}
    (h : lsqrBidiag A AT kw s v = .ok r) :
    s.products + 1 ≤ r.2.2.2.2.2.2 ∧ r.2.2.2.2.2.2 ≤ s.products + 2 := by
  unfold lsqrBidiag at h
  obtain ⟨beta, -, h⟩ := except_bind_ok h
  split at h
  · obtain ⟨alpha, -, h⟩ := except_bind_ok h
    split at h <;> cases h <;> exact ⟨by simp, by simp⟩
  · cases h; exact ⟨by simp, by simp⟩

theorem lsqrStep_eff {A : V → U} {AT : U → V} {kw : LsqrKw S U V} {lim : Int} {bnorm : S} {s t : LsqrLoop S U V}
    (h : lsqrStep A AT kw lim bnorm s = .ok t) : LsqrStepEff kw lim bnorm s t := by
  unfold lsqrStep at h
  obtain ⟨v0, hv, h⟩ := except_bind_ok h
  obtain ⟨⟨Mu, Nv, v, alpha, beta, Anorm, products⟩, hbi, h⟩ := except_bind_ok h
  obtain ⟨⟨rhobar1, psi, phibar⟩, -, h⟩ := except_bind_ok h
  obtain ⟨⟨rho, theta, rhobar, phi, phibar', tau, t1, t2⟩, -, h⟩ := except_bind_ok h
  obtain ⟨invRho, -, h⟩ := except_bind_ok h
  obtain ⟨w, -, h⟩ := except_bind_ok h
  obtain ⟨k, -, h⟩ := except_bind_ok h
  obtain ⟨⟨xnorm, cs2, sn2, z⟩, -, h⟩ := except_bind_ok h
  obtain ⟨tests, ht, h⟩ := except_bind_ok h
  cases h
  have hp := lsqrBidiag_products hbi
  refine ⟨rfl, ?_, ⟨tests, rfl, rfl, ?_, ?_⟩, rfl, rfl, ?_, rfl, hp, by simp⟩
  · intro h0
    rw [h0] at hv
    cases hv
  · have hd : tests.direct = (decide (s.itn + 1 > kw.window) &&
        lt (normList (s.dErr.set k phi)) (kw.etol * sqrt (s.xNrgNorm2 + phi * phi))) := by
      unfold lsqrQuantities at ht
      obtain ⟨_, -, ht⟩ := except_bind_ok ht
      obtain ⟨_, -, ht⟩ := except_bind_ok ht
      obtain ⟨_, -, ht⟩ := except_bind_ok ht
      obtain ⟨_, -, ht⟩ := except_bind_ok ht
      obtain ⟨_, -, ht⟩ := except_bind_ok ht
      obtain ⟨_, -, ht⟩ := except_bind_ok ht
      cases ht; rfl
    rw [hd]; exact ht
  · intro hd
    unfold lsqrQuantities at ht
    obtain ⟨_, -, ht⟩ := except_bind_ok ht
    obtain ⟨_, -, ht⟩ := except_bind_ok ht
    obtain ⟨_, -, ht⟩ := except_bind_ok ht
    obtain ⟨_, -, ht⟩ := except_bind_ok ht
    obtain ⟨_, -, ht⟩ := except_bind_ok ht
    obtain ⟨_, -, ht⟩ := except_bind_ok ht
    cases ht
    simp only [Bool.and_eq_true, decide_eq_true_eq] at hd
    refine ⟨hd.1, normList (s.dErr.set k phi), sqrt (s.xNrgNorm2 + phi * phi), ?_, hd.2⟩
    simp only [hd.1, if_true, List.getLast?_append, List.getLast?_singleton, Option.some_or]
  · simp only
    split <;> simp

/-- invariant of the loop for every arithmetic -/
structure LsqrInv (kw : LsqrKw S U V) (lim : Int) (bnorm : S) (s : LsqrLoop S U V) : Prop where
  le : (s.itn : Int) ≤ max 0 lim
  stop : (s.itn = 0 ∧ s.istop = 0) ∨ (0 < s.itn ∧ ∃ tests, s.istop = lsqrStop kw lim s.itn tests ∧
    lsqrQuantities kw tests.direct bnorm s.Anorm s.Acond s.r2norm s.Arnorm s.xnorm = .ok tests ∧
    (tests.direct = true → kw.window < s.itn ∧
      ∃ trnc nrg : S, s.dirErrors.getLast? = some (trnc / nrg) ∧ lt trnc (kw.etol * nrg) = true))
  resids : if kw.storeResids then s.resids.length = s.itn + 1 ∧ s.resids.head? = some bnorm ∧ s.resids.getLast? = some s.r2norm
    else s.resids = []
  normalEqns : if kw.storeResids then s.normalEqns.length = s.itn + 1 ∧ s.normalEqns.getLast? = some s.Arnorm
    else s.normalEqns = []
  iterates : if kw.storeIterates then
      s.iterates.length = s.itn + 1 ∧ s.iterates.head? = some zeros ∧ s.iterates.getLast? = some s.x
    else s.iterates = []
  dirErrors : s.dirErrors.length = s.itn - kw.window
  products : s.products ≤ 2 * s.itn + 1
  products' : s.v ≠ none → s.itn + 1 ≤ s.products
  vbound : 0 < s.itn → s.v ≠ none

theorem lsqrStep_inv {A : V → U} {AT : U → V} {kw : LsqrKw S U V} {lim : Int} {bnorm : S} (s t : LsqrLoop S U V)
    (hs : LsqrInv kw lim bnorm s) (hc : lsqrCont lim s = true) (h : lsqrStep A AT kw lim bnorm s = .ok t) :
    LsqrInv kw lim bnorm t := by
  have e := lsqrStep_eff h
  simp only [lsqrCont, Bool.and_eq_true, decide_eq_true_eq] at hc
  obtain ⟨tests, -, h1, h2, h3⟩ := e.last
  refine ⟨?_, Or.inr ⟨by rw [e.itn]; omega, tests, h1, h2, h3⟩, ?_, ?_, ?_, ?_, ?_, ?_, fun _ => e.vbound⟩
  · have := e.itn; omega
  · have := hs.resids
    rw [e.resids, e.itn]
    split at this
    · rename_i hk
      obtain ⟨a, b, c⟩ := this
      simp only [hk, if_true, List.length_append, List.length_singleton, a, List.getLast?_append, List.getLast?_singleton,
        Option.some_or, List.head?_append, b, and_self]
    · rename_i hk
      simp [hk, this]
  · have := hs.normalEqns
    rw [e.normalEqns, e.itn]
    split at this
    · rename_i hk
      simp only [hk, if_true, List.length_append, List.length_singleton, this.1, List.getLast?_append, List.getLast?_singleton,
        Option.some_or, and_self]
    · rename_i hk
      simp [hk, this]
  · have := hs.iterates
    rw [e.iterates, e.itn]
    split at this
    · rename_i hk
      obtain ⟨a, b, c⟩ := this
      simp only [hk, if_true, List.length_append, List.length_singleton, a, List.getLast?_append, List.getLast?_singleton,
        Option.some_or, List.head?_append, b, and_self]
    · rename_i hk
      simp [hk, this]
  · rw [e.dirErrors, hs.dirErrors, e.itn]
    split <;> omega
  · have := hs.products
    have := e.products
    rw [e.itn]; omega
  · intro _
    have := hs.products' e.bound
    have := e.products
    rw [e.itn]; omega

theorem lsqrInit_inv {AT : U → V} {kw : LsqrKw S U V} {b : U} {s : LsqrLoop S U V} (lim : Int) (h : lsqrInit AT kw b = .ok s) :
    LsqrInv kw lim s.beta s ∧ s.itn = 0 ∧ s.istop = 0 ∧ s.x = zeros ∧
    s.beta = sqrt (dot (applyPrecon kw.M b) b) ∧ s.r2norm = s.beta := by
  unfold lsqrInit at h
  obtain ⟨beta, hb, h⟩ := except_bind_ok h
  have hbeta : beta = sqrt (dot (applyPrecon kw.M b) b) := by
    unfold pysqrt at hb
    split at hb <;> cases hb
    rfl
  have key : ∀ (Mu : U) (Nv : V) (v w : Option V) (alpha : S) (p : Nat), p ≤ 1 → (v ≠ none → 1 ≤ p) →
      LsqrInv kw lim beta
        (lsqrStart kw beta Mu Nv v w alpha p) := by
    intro Mu Nv v w alpha p hp hv
    refine ⟨by simp [lsqrStart], Or.inl ⟨rfl, rfl⟩, ?_, ?_, ?_, by simp [lsqrStart], by simpa [lsqrStart] using hp,
      fun h => by simpa [lsqrStart] using hv h, fun h => absurd h (by simp [lsqrStart])⟩
    · unfold lsqrStart; cases kw.storeResids <;> simp
    · unfold lsqrStart; cases kw.storeResids <;> simp
    · unfold lsqrStart; cases kw.storeIterates <;> simp
  split at h
  · obtain ⟨alpha, ha, h⟩ := except_bind_ok h
    split at h <;> cases h <;> exact ⟨key _ _ _ _ _ _ (by simp) (by simp), rfl, rfl, rfl, hbeta, rfl⟩
  · cases h; exact ⟨key _ _ _ _ _ _ (by simp) (by simp), rfl, rfl, rfl, hbeta, rfl⟩

omit [Vect S U] [Vect S V] in
theorem lsqrStop_le (kw : LsqrKw S U V) (lim : Int) (itn : Nat) (t : LsqrTests S) : lsqrStop kw lim itn t ≤ 8 := by
  unfold lsqrStop
  simp only
  split_ifs <;> omega

omit [Vect S U] [Vect S V] in
theorem lsqrStop_seven (kw : LsqrKw S U V) (lim : Int) (itn : Nat) (t : LsqrTests S) (h : lsqrStop kw lim itn t = 7) :
    lim ≤ itn := by
  unfold lsqrStop at h
  simp only at h
  split_ifs at h <;> omega

omit [Vect S U] [Vect S V] in
theorem lsqrStop_zero (kw : LsqrKw S U V) (lim : Int) (itn : Nat) (t : LsqrTests S) (h : lsqrStop kw lim itn t = 0) :
    (itn : Int) < lim := by
  unfold lsqrStop at h
  simp only at h
  split_ifs at h; omega

/-- what is known when `solve` returns -/
theorem lsqrSolve_inv {A : V → U} {AT : U → V} {n : Nat} {b : U} {kw : LsqrKw S U V} {res : LsqrRes S V}
    {s : LsqrLoop S U V} (h : lsqrSolve A AT n b kw = .ok (res, s)) :
    kw.wantvar = false ∧ res = lsqrResult kw s ∧
    LsqrInv kw (lsqrLimit n kw.itnlim) (sqrt (dot (applyPrecon kw.M b) b)) s ∧
    (s.istop = 0 → s.itn = 0 ∧ s.x = zeros ∧ s.r2norm = sqrt (dot (applyPrecon kw.M b) b) ∧
      (feq s.Arnorm (lit 0) = true ∨ lsqrLimit n kw.itnlim ≤ 0)) := by
  unfold lsqrSolve at h
  simp only at h
  obtain ⟨_, hw, h⟩ := except_bind_ok h
  have hw' : kw.wantvar = false := by
    cases hk : kw.wantvar with
    | false => rfl
    | true => rw [hk] at hw; cases hw
  obtain ⟨s0, h0, h⟩ := except_bind_ok h
  obtain ⟨s1, h1, h⟩ := except_bind_ok h
  obtain ⟨rfl, rfl⟩ : lsqrResult kw s1 = res ∧ s1 = s := by injection h with h; simpa using h
  obtain ⟨hi, hz1, hz2, hz3, hbeta, hr⟩ := lsqrInit_inv (lsqrLimit n kw.itnlim) h0
  rw [← hbeta]
  unfold lsqrMain at h1
  split at h1
  · rename_i hx
    cases h1
    exact ⟨hw', rfl, hi, fun _ => ⟨hz1, hz3, hr, Or.inl hx⟩⟩
  · have hzero : s1.istop = 0 → s1.itn = 0 ∧ s1.x = zeros ∧ s1.r2norm = s0.beta ∧ lsqrLimit n kw.itnlim ≤ 0 := by
      intro h2
      by_cases hl : lsqrLimit n kw.itnlim ≤ 0
      · have hc : lsqrCont (lsqrLimit n kw.itnlim) s0 = false := by
          simp only [lsqrCont, hz1, hz2]; simp; omega
        unfold lsqrLoop at h1
        rw [exceptLoop_of_not hc] at h1
        cases h1
        exact ⟨hz1, hz3, hr, hl⟩
      · exfalso
        obtain ⟨h3, h4⟩ := exceptLoop_inv (fun s => LsqrInv kw (lsqrLimit n kw.itnlim) s0.beta s)
          (fun s t hs hc ht => lsqrStep_inv s t hs hc ht) s0 hi s1 h1
        simp only [lsqrCont, h2, decide_true, Bool.true_and, decide_eq_false_iff_not] at h4
        rcases h3.stop with ⟨h5, -⟩ | ⟨-, tests, h5, -⟩
        · rw [h5] at h4; simp at h4; omega
        · rw [h2] at h5
          exact h4 (lsqrStop_zero _ _ _ _ h5.symm)
    refine ⟨hw', rfl, (exceptLoop_inv (fun s => LsqrInv kw (lsqrLimit n kw.itnlim) s0.beta s)
      (fun s t hs hc ht => lsqrStep_inv s t hs hc ht) s0 hi s1 h1).1, fun h => ?_⟩
    obtain ⟨a, b, c, d⟩ := hzero h
    exact ⟨a, b, c, Or.inr d⟩

omit [Vect S U] [Vect S V] in
theorem lsqrQuantities_ok {kw : LsqrKw S U V} {direct : Bool} {bnorm Anorm Acond rnorm Arnorm xnorm : S} {t : LsqrTests S}
    (h : lsqrQuantities kw direct bnorm Anorm Acond rnorm Arnorm xnorm = .ok t) :
    t.test1 = rnorm / bnorm ∧
    t.test2 = (if feq Anorm (lit 0) || feq rnorm (lit 0) then kw.inf else Arnorm / (Anorm * rnorm)) ∧
    t.test3 = (if feq Acond (lit 0) then kw.inf else lit 1 / Acond) ∧
    t.t1 = t.test1 / (lit 1 + Anorm * xnorm / bnorm) ∧
    t.rtol = kw.btol + kw.atol * Anorm * xnorm / bnorm := by
  unfold lsqrQuantities at h
  obtain ⟨test1, h1, h⟩ := except_bind_ok h
  obtain ⟨test2, h2, h⟩ := except_bind_ok h
  obtain ⟨test3, h3, h⟩ := except_bind_ok h
  obtain ⟨q, hq, h⟩ := except_bind_ok h
  obtain ⟨t1, ht, h⟩ := except_bind_ok h
  obtain ⟨q', hq', h⟩ := except_bind_ok h
  cases h
  refine ⟨(pydiv_ok h1).1, ?_, ?_, ?_, ?_⟩
  · unfold lsqrTest2 at h2
    split at h2
    · rename_i hc; simp only [hc, if_true]; cases h2; rfl
    · rename_i hc; simp only [hc]; exact (pydiv_ok h2).1
  · unfold lsqrTest3 at h3
    split at h3
    · rename_i hc; simp only [hc, if_true]; cases h3; rfl
    · rename_i hc; simp only [hc]; exact (pydiv_ok h3).1
  · simp only; rw [← (pydiv_ok hq).1]; exact (pydiv_ok ht).1
  · simp only; rw [← (pydiv_ok hq').1]

omit [Vect S U] [Vect S V] in
theorem lsqrStop_eq (kw : LsqrKw S U V) (lim : Int) (itn : Nat) (t : LsqrTests S) : lsqrStop kw lim itn t =
    if le t.test1 t.rtol then 1
    else if le t.test2 kw.atol then 2
    else if le t.test3 (lit 0) then 3
    else if le (lit 1 + t.t1) (lit 1) then 4
    else if le (lit 1 + t.test2) (lit 1) then 5
    else if le (lit 1 + t.test3) (lit 1) then 6
    else if lim ≤ (itn : Int) then 7
    else if t.direct then 8 else 0 := rfl

/-! ### The properties -/

/-- **C37 (partial).** For every arithmetic, operator, preconditioners, right-hand side and keywords for which `solve`
returns: the number of iterations is at most the limit (`itnlim`, or `3n` if that is 0); `istop` is at most 8; it is 0 exactly
if no iteration was done, with `x = 0` and the normal residual 0 (or a negative limit), and otherwise it is determined by the
documented tests in the documented order, with `ctol = 0`; `status` and `optimal` are consistent with `istop`; `istop = 7`
only at the limit; if stored, `resids`, `normal_eqns_resids` and `iterates` have `itn + 1` entries, beginning with the norm of
the right-hand side and `x = 0` and ending with the returned values; and `nMatvec = 2 itn` is at most one less, and at most
`itn - 1` more, than the number of products.
Missing, because the code violates it: that `conlim` has an effect (`C37_conlim_ignored`; the test for code 3 uses `ctol = 0`),
that `nMatvec` is the number of products (`C37_nMatvec_undercounts`), that `solve` returns (`C37_wantvar_raises`,
`C37_nan_raises`). -/
theorem C37_status_partial (A : V → U) (AT : U → V) (n : Nat) (b : U) (kw : LsqrKw S U V) (res : LsqrRes S V)
    (s : LsqrLoop S U V) (h : lsqrSolve A AT n b kw = .ok (res, s)) :
    (res.itn : Int) ≤ max 0 (if kw.itnlim = 0 then 3 * (n : Int) else kw.itnlim) ∧
    res.istop ≤ 8 ∧
    (res.istop = 0 ↔ res.itn = 0) ∧
    (res.istop = 0 → res.x = zeros ∧ res.r2norm = sqrt (dot (applyPrecon kw.M b) b) ∧
      (feq res.Arnorm (lit 0) = true ∨ kw.itnlim < 0 ∨ n = 0)) ∧
    (res.istop ≠ 0 → ∃ test1 test2 test3 t1 rtol direct,
      LsqrReason kw (lit 0) (if kw.itnlim = 0 then 3 * (n : Int) else kw.itnlim) (sqrt (dot (applyPrecon kw.M b) b)) res
        test1 test2 test3 t1 rtol direct) ∧
    (res.istop = 7 → (res.itn : Int) = if kw.itnlim = 0 then 3 * (n : Int) else kw.itnlim) ∧
    (res.optimal = true ↔ res.istop = 1 ∨ res.istop = 2 ∨ res.istop = 4 ∨ res.istop = 5 ∨ res.istop = 8) ∧
    ((res.status = "solution is zero" ↔ res.istop = 0) ∧
     (res.status = "residual small" ↔ res.istop = 1 ∨ res.istop = 2 ∨ res.istop = 4 ∨ res.istop = 5) ∧
     (res.status = "ill-conditioned operator" ↔ res.istop = 3 ∨ res.istop = 6) ∧
     (res.status = "max iterations" ↔ res.istop = 7) ∧
     (res.status = "direct error small" ↔ res.istop = 8)) ∧
    (if kw.storeResids then
       res.resids.length = res.itn + 1 ∧ res.resids.head? = some (sqrt (dot (applyPrecon kw.M b) b)) ∧
       res.resids.getLast? = some res.r2norm ∧ res.normalEqns.length = res.itn + 1 ∧ res.normalEqns.getLast? = some res.Arnorm
     else res.resids = [] ∧ res.normalEqns = []) ∧
    (if kw.storeIterates then
       res.iterates.length = res.itn + 1 ∧ res.iterates.head? = some zeros ∧ res.iterates.getLast? = some res.x
     else res.iterates = []) ∧
    res.dirErrors.length = res.itn - kw.window ∧
    s.products ≤ res.nMatvec + 1 ∧ (0 < res.itn → res.nMatvec ≤ s.products + (res.itn - 1)) := by
  obtain ⟨hw, rfl, hi, hz⟩ := lsqrSolve_inv h
  have hlim : (if kw.itnlim = 0 then 3 * (n : Int) else kw.itnlim) = lsqrLimit n kw.itnlim := rfl
  rw [hlim]
  have hle : s.istop ≤ 8 := by
    rcases hi.stop with ⟨-, h⟩ | ⟨-, t, h, -⟩
    · omega
    · rw [h]; exact lsqrStop_le ..
  have hcases : s.istop = 0 ∨ s.istop = 1 ∨ s.istop = 2 ∨ s.istop = 3 ∨ s.istop = 4 ∨ s.istop = 5 ∨ s.istop = 6 ∨
      s.istop = 7 ∨ s.istop = 8 := by omega
  refine ⟨hi.le, hle, ⟨fun h => (hz h).1, ?_⟩, ?_, ?_, ?_, ?_, ?_, ?_, hi.iterates, hi.dirErrors, hi.products, ?_⟩
  · intro h
    rcases hi.stop with ⟨-, h⟩ | ⟨h', -⟩
    · exact h
    · exact absurd h (Nat.pos_iff_ne_zero.1 h')
  · intro h
    obtain ⟨-, h1, h2, h3⟩ := hz h
    refine ⟨h1, h2, h3.imp id fun h => ?_⟩
    unfold lsqrLimit at h
    split at h <;> omega
  · intro h
    rcases hi.stop with ⟨-, h'⟩ | ⟨-, t, h1, h2, h3⟩
    · exact absurd h' h
    · obtain ⟨q1, q2, q3, q4, q5⟩ := lsqrQuantities_ok h2
      exact ⟨t.test1, t.test2, t.test3, t.t1, t.rtol, t.direct, q1, q2, q3, q4, q5, h3, h1.trans (lsqrStop_eq ..)⟩
  · intro h
    rcases hi.stop with ⟨-, h'⟩ | ⟨h0, t, h1, -⟩
    · change s.istop = 7 at h; omega
    · have h2 := lsqrStop_seven kw _ _ t (h1.symm.trans h)
      have := hi.le
      change (s.itn : Int) = _
      omega
  · simp [lsqrResult]
  · simp only [lsqrResult]
    rcases hcases with h | h | h | h | h | h | h | h | h <;> simp [h, lsqrStatus]
  · have h1 := hi.resids
    have h2 := hi.normalEqns
    split at h1
    · rename_i hk
      simp only [hk, if_true] at h2 ⊢
      exact ⟨h1.1, h1.2.1, h1.2.2, h2.1, h2.2⟩
    · rename_i hk
      simp only [hk] at h2 ⊢
      exact ⟨h1, h2⟩
  · intro h
    have := hi.products' (hi.vbound h)
    change 2 * s.itn ≤ s.products + (s.itn - 1)
    change 0 < s.itn at h
    omega

/-- **C37, negative.** `conlim` has no effect: for every arithmetic and input, two calls that differ only in `conlim` either
both raise the same exception or return results that agree in everything (all attributes but `ctol`, which `solve` never
reads). -/
theorem C37_conlim_ignored (A : V → U) (AT : U → V) (n : Nat) (b : U) (kw : LsqrKw S U V) (conlim : S) :
    (∃ e, lsqrSolve A AT n b kw = .error e ∧ lsqrSolve A AT n b { kw with conlim := conlim } = .error e) ∨
    (∃ res s ctol, lsqrSolve A AT n b kw = .ok (res, s) ∧
      lsqrSolve A AT n b { kw with conlim := conlim } = .ok ({ res with ctol := ctol }, s)) := by
  have e0 : lsqrInit AT { kw with conlim := conlim } b = lsqrInit AT kw b := rfl
  have e1 : ∀ s, lsqrMain A AT { kw with conlim := conlim } (lsqrLimit n kw.itnlim) s =
      lsqrMain A AT kw (lsqrLimit n kw.itnlim) s := fun _ => rfl
  cases hw : lsqrVar kw.wantvar with
  | error e => exact Or.inl ⟨e, by unfold lsqrSolve; simp only [hw]; rfl, by unfold lsqrSolve; simp only [hw]; rfl⟩
  | ok _ =>
    cases h0 : lsqrInit AT kw b with
    | error e =>
      exact Or.inl ⟨e, by unfold lsqrSolve; simp only [hw, h0]; rfl, by unfold lsqrSolve; simp only [hw, e0, h0]; rfl⟩
    | ok s0 =>
      have hl : ∀ c, lsqrSolve A AT n b { kw with conlim := c } =
          (lsqrMain A AT kw (lsqrLimit n kw.itnlim) s0 >>= fun s => .ok (lsqrResult { kw with conlim := c } s, s)) := by
        intro c
        have e2 : lsqrInit AT { kw with conlim := c } b = .ok s0 := h0
        unfold lsqrSolve
        simp only [hw, e2]; rfl
      cases h1 : lsqrMain A AT kw (lsqrLimit n kw.itnlim) s0 with
      | error e => exact Or.inl ⟨e, (hl kw.conlim).trans (by rw [h1]; rfl), (hl conlim).trans (by rw [h1]; rfl)⟩
      | ok s1 =>
        exact Or.inr ⟨lsqrResult kw s1, s1, (lsqrResult { kw with conlim := conlim } s1).ctol,
          (hl kw.conlim).trans (by rw [h1]; rfl), (hl conlim).trans (by rw [h1]; rfl)⟩

/-- **C37, negative.** With `wantvar=True` every call raises `TypeError`. -/
theorem C37_wantvar_raises (A : V → U) (AT : U → V) (n : Nat) (b : U) (kw : LsqrKw S U V) (h : kw.wantvar = true) :
    lsqrSolve A AT n b kw = .error .typeError := by
  unfold lsqrSolve
  simp only [h]; rfl

/-- **C37, negative.** With a right-hand side whose norm is NaN (for instance one NaN entry), a call with a positive limit
raises `UnboundLocalError` for `v` instead of reporting a failure. -/
theorem C37_nan_raises (A : V → U) (AT : U → V) (n : Nat) (b : U) (kw : LsqrKw S U V) (hw : kw.wantvar = false)
    (hl : 0 < if kw.itnlim = 0 then 3 * (n : Int) else kw.itnlim) (h1 : lt (dot (applyPrecon kw.M b) b) (lit 0) = false)
    (h2 : gt (sqrt (dot (applyPrecon kw.M b) b)) (lit 0) = false)
    (h3 : feq (lit 0 * sqrt (dot (applyPrecon kw.M b) b)) (lit 0) = false) :
    lsqrSolve A AT n b kw = .error (.unboundLocal "v") := by
  have hp : pysqrt (dot (applyPrecon kw.M b) b) = .ok (sqrt (dot (applyPrecon kw.M b) b)) := by
    unfold pysqrt; simp only [h1]; rfl
  have h0 : lsqrInit AT kw b =
      .ok (lsqrStart kw (sqrt (dot (applyPrecon kw.M b) b)) b zeros none none (lit 0) 0) := by
    unfold lsqrInit
    simp only [hp]
    change (if gt (sqrt (dot (applyPrecon kw.M b) b)) (lit 0) = true then _ else _) = _
    rw [h2]; rfl
  have hz : lsqrXZero (lsqrStart kw (sqrt (dot (applyPrecon kw.M b) b)) b zeros none none (lit 0) 0 : LsqrLoop S U V) = false :=
    h3
  have hm : lsqrMain A AT kw (lsqrLimit n kw.itnlim)
      (lsqrStart kw (sqrt (dot (applyPrecon kw.M b) b)) b zeros none none (lit 0) 0) = .error (.unboundLocal "v") := by
    unfold lsqrMain
    rw [hz]
    refine exceptLoop_of_error (e := PyError.unboundLocal "v") ?_ rfl
    change (decide ((0:Nat) = 0) && decide ((0 : Int) < lsqrLimit n kw.itnlim)) = true
    rw [decide_eq_true rfl, Bool.true_and, decide_eq_true_eq]; exact hl
  unfold lsqrSolve
  simp only [hw, h0]
  change lsqrMain A AT kw (lsqrLimit n kw.itnlim)
      (lsqrStart kw (sqrt (dot (applyPrecon kw.M b) b)) b zeros none none (lit 0) 0) >>= _ = _
  rw [hm]; rfl

/-- the hypotheses of `C37_nan_raises` are met in exact arithmetic by a right-hand side that is not a number -/
example : lsqrSolve (S := Fl) (U := Vec ℝ) (V := Vec ℝ) (Vec.op (fun v => 2 * v)) (Vec.op (fun v => 2 * v)) 1 .nan
    { damp := .fin 0, atol := .fin 0, btol := .fin 0, conlim := .fin 0, etol := .fin 0, inf := .nan } =
      .error (.unboundLocal "v") := by
  refine C37_nan_raises _ _ _ _ _ rfl (by norm_num) ?_ ?_ ?_
  · simp [applyPrecon]
  · simp [applyPrecon, Scalar.gt]
  · simp [applyPrecon, feq]

end Verif.Solver
