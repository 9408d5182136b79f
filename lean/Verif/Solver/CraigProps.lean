import Verif.Solver.Craig
import Verif.Solver.LSQRProps

/-!
# Properties of CRAIG for every arithmetic: C41
-/

namespace Verif.Solver
open Scalar Vect

variable {S U V : Type} [Scalar S] [Vect S U] [Vect S V]

/-- the effect of an iteration on the counters, the lists and the stopping code -/
structure CraigStepEff (kw : CraigKw S U V) (lim : Int) (bnorm : S) (s t : CraigLoop S U V) : Prop where
  itn : t.itn = s.itn + 1
  stop : ∃ direct, t.istop = craigStop kw lim t.itn direct (sqrt t.rnorm / bnorm) ∧
    (direct = true → kw.window < t.itn ∧
      ∃ trnc nrg : S, t.dirErrors.getLast? = some (trnc / nrg) ∧ lt trnc (kw.etol * nrg) = true)
  resids : t.resids = if kw.storeResids then s.resids ++ [t.rnorm] else s.resids
  norms : t.norms.length = s.norms.length + if kw.storeResids then 1 else 0
  normalEqns : ∃ a, t.Arnorm = some a ∧ t.normalEqns = if kw.storeResids then s.normalEqns ++ [a] else s.normalEqns
  dirErrors : t.dirErrors.length = s.dirErrors.length + if t.itn > kw.window then 1 else 0
  iteratesP : t.iteratesP = if kw.storeIterates then s.iteratesP ++ [t.x] else s.iteratesP
  iteratesD : t.iteratesD = if kw.storeIterates then s.iteratesD ++ [t.r] else s.iteratesD
  products : t.products ≤ s.products + 2

theorem craigBidiag_products {A : V → U} {AT : U → V} {kw : CraigKw S U V} {s : CraigLoop S U V} {r}
    (h : craigBidiag A AT kw s = .ok r) : r.2.2.2.2.2.2 ≤ s.products + 2 := by
  unfold craigBidiag at h
  obtain ⟨beta, -, h⟩ := except_bind_ok h
  split at h
  · obtain ⟨alpha, -, h⟩ := except_bind_ok h
    split at h <;> cases h <;> simp
  · cases h; simp

theorem craigStep_eff {A : V → U} {AT : U → V} {kw : CraigKw S U V} {lim : Int} {bnorm : S} {s t : CraigLoop S U V}
    (h : craigStep A AT kw lim bnorm s = .ok t) : CraigStepEff kw lim bnorm s t := by
  unfold craigStep at h
  obtain ⟨⟨Mu, u, Nv, v, alpha, beta, products⟩, hb, h⟩ := except_bind_ok h
  obtain ⟨⟨betaHat, alphaHat, s2, c, sn⟩, -, h⟩ := except_bind_ok h
  obtain ⟨tau, -, h⟩ := except_bind_ok h
  obtain ⟨zeta, -, h⟩ := except_bind_ok h
  obtain ⟨k, -, h⟩ := except_bind_ok h
  obtain ⟨test1, ht, h⟩ := except_bind_ok h
  cases h
  have hp := craigBidiag_products hb
  have h1 := (pydiv_ok ht).1
  refine ⟨rfl, ⟨_, by rw [h1], ?_⟩, rfl, ?_, ⟨_, rfl, rfl⟩, ?_, rfl, rfl, hp⟩
  · intro hd
    simp only [Bool.and_eq_true, decide_eq_true_eq] at hd
    refine ⟨hd.1, normList (s.dErr.set k tau), sqrt (s.rNrgNorm2 + tau * tau), ?_, hd.2⟩
    simp only [hd.1, if_true, List.getLast?_append, List.getLast?_singleton, Option.some_or]
  · simp only
    split <;> simp
  · simp only
    split <;> simp

/-- invariant of the loop for every arithmetic; `s0` is the state before the loop -/
structure CraigInv (kw : CraigKw S U V) (lim : Int) (s0 s : CraigLoop S U V) : Prop where
  le : (s.itn : Int) ≤ max 0 lim
  stop : (s.itn = 0 ∧ s.istop = 0) ∨ (0 < s.itn ∧ s.Arnorm ≠ none ∧
    ∃ direct, s.istop = craigStop kw lim s.itn direct (sqrt s.rnorm / s0.beta) ∧
    (direct = true → kw.window < s.itn ∧
      ∃ trnc nrg : S, s.dirErrors.getLast? = some (trnc / nrg) ∧ lt trnc (kw.etol * nrg) = true))
  zero : s.itn = 0 → s = s0
  resids : if kw.storeResids then s.resids.length = s.itn + 1 ∧ s.resids.getLast? = some s.rnorm else s.resids = []
  norms : s.norms.length = if kw.storeResids then s.itn + 1 else 0
  normalEqns : s.normalEqns.length = if kw.storeResids then s.itn else 0
  iteratesP : if kw.storeIterates then s.iteratesP.length = s.itn + 1 ∧ s.iteratesP.getLast? = some s.x else s.iteratesP = []
  iteratesD : if kw.storeIterates then s.iteratesD.length = s.itn + 1 ∧ s.iteratesD.getLast? = some s.r else s.iteratesD = []
  dirErrors : s.dirErrors.length = s.itn - kw.window
  products : s.products ≤ 2 * s.itn + 1

theorem craigStep_inv {A : V → U} {AT : U → V} {kw : CraigKw S U V} {lim : Int} {s0 : CraigLoop S U V} (s t : CraigLoop S U V)
    (hs : CraigInv kw lim s0 s) (hc : craigCont lim s = true) (h : craigStep A AT kw lim s0.beta s = .ok t) :
    CraigInv kw lim s0 t := by
  have e := craigStep_eff h
  simp only [craigCont, Bool.and_eq_true, decide_eq_true_eq] at hc
  obtain ⟨direct, h1, h2⟩ := e.stop
  obtain ⟨a, ha, hn⟩ := e.normalEqns
  refine ⟨?_, Or.inr ⟨by rw [e.itn]; omega, by rw [ha]; simp, direct, h1, h2⟩, ?_, ?_, ?_, ?_, ?_, ?_, ?_, ?_⟩
  · have := e.itn; omega
  · intro h0; have := e.itn; omega
  · have := hs.resids
    rw [e.resids, e.itn]
    split at this
    · rename_i hk
      simp only [hk, if_true, List.length_append, List.length_singleton, this.1, List.getLast?_append, List.getLast?_singleton,
        Option.some_or, and_self]
    · rename_i hk
      simp [hk, this]
  · rw [e.norms, hs.norms, e.itn]
    split <;> rfl
  · rw [hn, e.itn]
    have := hs.normalEqns
    split at this
    · rename_i hk
      simp [hk, this]
    · rename_i hk
      simp [hk, this]
  · have := hs.iteratesP
    rw [e.iteratesP, e.itn]
    split at this
    · rename_i hk
      simp only [hk, if_true, List.length_append, List.length_singleton, this.1, List.getLast?_append, List.getLast?_singleton,
        Option.some_or, and_self]
    · rename_i hk
      simp [hk, this]
  · have := hs.iteratesD
    rw [e.iteratesD, e.itn]
    split at this
    · rename_i hk
      simp only [hk, if_true, List.length_append, List.length_singleton, this.1, List.getLast?_append, List.getLast?_singleton,
        Option.some_or, and_self]
    · rename_i hk
      simp [hk, this]
  · rw [e.dirErrors, hs.dirErrors, e.itn]
    split <;> omega
  · have := hs.products
    have := e.products
    rw [e.itn]; omega

theorem craigVectors_ok {AT : U → V} {kw : CraigKw S U V} {b : U} {r} (h : craigVectors AT kw b = .ok r) :
    r.2.2.1 = sqrt (dot (applyPrecon kw.M b) b) ∧ r.2.2.2.2.2 ≤ 1 ∧
    (r.2.2.2.1 ≠ none → gt (sqrt (dot (applyPrecon kw.M b) b)) (lit 0) = true) := by
  unfold craigVectors at h
  obtain ⟨beta, hb, h⟩ := except_bind_ok h
  have hbeta : beta = sqrt (dot (applyPrecon kw.M b) b) := by
    unfold pysqrt at hb
    split at hb <;> cases hb
    rfl
  rw [← hbeta]
  split at h
  · rename_i hg
    obtain ⟨alpha, ha, h⟩ := except_bind_ok h
    split at h <;> cases h <;> exact ⟨rfl, by simp, fun _ => hg⟩
  · cases h; exact ⟨rfl, by simp, fun h => absurd rfl h⟩

theorem craigStart_inv {kw : CraigKw S U V} {lim : Int} {Mu u : U} {beta : S} {vs : Option (V × V)} {alpha : S} {p : Nat}
    (hp : p ≤ 1) {s : CraigLoop S U V} (h : craigStart kw Mu u beta vs alpha p = .ok s) :
    CraigInv kw lim s s ∧ s.beta = beta ∧ vs ≠ none ∧ s.Arnorm = none := by
  unfold craigStart at h
  obtain ⟨tau, -, h⟩ := except_bind_ok h
  obtain ⟨c, -, h⟩ := except_bind_ok h
  obtain ⟨sn, -, h⟩ := except_bind_ok h
  obtain ⟨⟨v, Nv⟩, hv, h⟩ := except_bind_ok h
  have hvs : vs ≠ none := by
    intro h0
    rw [h0] at hv
    cases hv
  cases h
  refine ⟨?_, rfl, hvs, rfl⟩
  cases hk : kw.storeResids <;> cases hi : kw.storeIterates <;>
    exact ⟨by simp, Or.inl ⟨rfl, rfl⟩, fun _ => rfl, by simp [hk], by simp [hk], by simp [hk], by simp [hi], by simp [hi], by simp, by simpa using hp⟩

theorem craigSolve_cases {A : V → U} {AT : U → V} {n : Nat} {b : U} {kw : CraigKw S U V} {res : CraigRes S U V}
    {s : CraigLoop S U V} (h : craigSolve A AT n b kw = .ok (res, s)) :
    kw.wantvar = false ∧ gt (sqrt (dot (applyPrecon kw.M b) b)) (lit 0) = true ∧
    ∃ s0 a, s.Arnorm = some a ∧ s0.beta = sqrt (dot (applyPrecon kw.M b) b) ∧ s0.Arnorm = none ∧
      CraigInv kw (craigLimit n kw.itnlim) s0 s ∧ craigCont (craigLimit n kw.itnlim) s = false ∧ craigResult s = .ok res := by
  unfold craigSolve at h
  obtain ⟨_, hv, h⟩ := except_bind_ok h
  have hw : kw.wantvar = false := by
    unfold lsqrVar at hv
    split at hv
    · cases hv
    · rename_i hh; simpa using hh
  obtain ⟨⟨Mu, u, beta, vs, alpha, p⟩, h1, h⟩ := except_bind_ok h
  obtain ⟨k1, k2, k3⟩ := craigVectors_ok h1
  obtain ⟨s0, h2, h⟩ := except_bind_ok h
  obtain ⟨j1, j2, j3, j4⟩ := craigStart_inv (lim := craigLimit n kw.itnlim) k2 h2
  obtain ⟨t, h3, h⟩ := except_bind_ok h
  obtain ⟨res', h4, h⟩ := except_bind_ok h
  have h5 : res' = res ∧ t = s := by injection h with h; simpa using h
  obtain ⟨rfl, rfl⟩ := h5
  have ha : ∃ a, t.Arnorm = some a := by
    unfold craigResult at h4
    obtain ⟨a, ha, -⟩ := except_bind_ok h4
    cases hA : t.Arnorm with
    | none => rw [hA] at ha; cases ha
    | some a => exact ⟨a, rfl⟩
  obtain ⟨a, ha⟩ := ha
  unfold craigMain at h3
  split at h3
  · have : s0 = t := by injection h3
    rw [← this, j4] at ha
    cases ha
  · unfold craigLoop at h3
    obtain ⟨i1, i2⟩ := exceptLoop_inv (fun s => CraigInv kw (craigLimit n kw.itnlim) s0 s)
      (fun s t hs hc ht => craigStep_inv s t hs hc ht) _ j1 t h3
    exact ⟨hw, k3 j3, s0, a, ha, j2.trans k1, j4, i1, i2, h4⟩

omit [Vect S U] [Vect S V] in
theorem craigStop_eq (kw : CraigKw S U V) (lim : Int) (itn : Nat) (direct : Bool) (test1 : S) :
    craigStop kw lim itn direct test1 =
    if le test1 kw.btol then 1 else if le (lit 1 + test1) (lit 1) then 4 else if lim ≤ (itn : Int) then 7
    else if direct then 8 else 0 := rfl

/-! ### C41 -/

/-- **C41 (partial).** For every arithmetic, operator, preconditioners, right-hand side and keywords for which CRAIG returns: the
norm of the right-hand side is positive; at least one and at most `itnlim` iterations were made (`3n` if `itnlim` is 0);
`istop` is the first reason in the order 1 (`test1 <= btol`), 4 (`1 + test1 <= 1`), 7 (iteration limit), 8 (direct error), with
`test1 = r2norm / norm(rhs)`, and there is a reason; `status` and `optimal` agree with `istop`; the stored lists have one entry per
iterate; at most `2 itn + 1` products were made.

Missing from the full property: `solve` does not return for a zero right-hand side (`C41_zero_raises`), ignores `damp`
(`C41_damp_ignored`, `C41_never_solves`), `atol` and `conlim`. -/
theorem C41_status_partial (A : V → U) (AT : U → V) (n : Nat) (b : U) (kw : CraigKw S U V) (res : CraigRes S U V)
    (s : CraigLoop S U V) (h : craigSolve A AT n b kw = .ok (res, s)) :
    gt (sqrt (dot (applyPrecon kw.M b) b)) (lit 0) = true ∧
    1 ≤ res.itn ∧ (res.itn : Int) ≤ (if kw.itnlim = 0 then 3 * (n : Int) else kw.itnlim) ∧
    (∃ direct, (res.istop = if le (res.r2norm / sqrt (dot (applyPrecon kw.M b) b)) kw.btol then 1
        else if le (lit 1 + res.r2norm / sqrt (dot (applyPrecon kw.M b) b)) (lit 1) then 4
        else if (if kw.itnlim = 0 then 3 * (n : Int) else kw.itnlim) ≤ (res.itn : Int) then 7 else if direct then 8 else 0) ∧
      (direct = true → kw.window < res.itn ∧
        ∃ trnc nrg : S, res.dirErrors.getLast? = some (trnc / nrg) ∧ lt trnc (kw.etol * nrg) = true)) ∧
    res.istop ∈ [1, 4, 7, 8] ∧
    (res.status = if res.istop = 7 then "max iterations" else if res.istop = 8 then "direct error small" else "residual small") ∧
    (res.optimal = true ↔ res.istop ≠ 7) ∧
    res.nMatvec = 2 * res.itn ∧ s.products ≤ 2 * res.itn + 1 ∧
    (if kw.storeResids then res.resids.length = res.itn + 1 ∧ res.norms.length = res.itn + 1 ∧ res.normalEqns.length = res.itn
     else res.resids = [] ∧ res.norms = [] ∧ res.normalEqns = []) ∧
    (if kw.storeIterates then
       res.iteratesP.length = res.itn + 1 ∧ res.iteratesP.getLast? = some res.x ∧
       res.iteratesD.length = res.itn + 1 ∧ res.iteratesD.getLast? = some res.r
     else res.iteratesP = [] ∧ res.iteratesD = []) ∧
    res.dirErrors.length = res.itn - kw.window := by
  obtain ⟨-, hg, s0, a, ha, hb, ha0, hi, hc, hr⟩ := craigSolve_cases h
  have hlim : (if kw.itnlim = 0 then 3 * (n : Int) else kw.itnlim) = craigLimit n kw.itnlim := rfl
  rw [hlim]
  unfold craigResult at hr
  rw [ha] at hr
  simp only [bound] at hr
  cases hr
  rcases hi.stop with ⟨h0, -⟩ | ⟨h0, -, direct, h1, h2⟩
  · rw [hi.zero h0, ha0] at ha; cases ha
  · have hle := hi.le
    have hstop : s.istop ≠ 0 := by
      intro h3
      simp only [craigCont, h3, decide_true, Bool.true_and, decide_eq_false_iff_not] at hc
      rw [h3, craigStop_eq] at h1
      split_ifs at h1
      omega
    rw [hb, craigStop_eq] at h1
    have hmem : s.istop ∈ [1, 4, 7, 8] := by
      rw [h1] at hstop ⊢
      revert hstop
      split_ifs <;> simp
    refine ⟨hg, h0, by simp only at *; omega, ⟨direct, h1, h2⟩, hmem, ?_, ?_, rfl, hi.products, ?_, ?_, hi.dirErrors⟩
    · simp only [List.mem_cons, List.not_mem_nil, or_false] at hmem
      rcases hmem with h | h | h | h <;> simp [h, lsqrStatus]
    · simp only [List.mem_cons, List.not_mem_nil, or_false] at hmem
      rcases hmem with h | h | h | h <;> simp [h]
    · have h1 := hi.resids
      have h2 := hi.norms
      have h3 := hi.normalEqns
      split at h1
      · rename_i hk
        simp only [hk, if_true] at h2 h3 ⊢
        exact ⟨h1.1, h2, h3⟩
      · rename_i hk
        simp only [hk] at h2 h3 ⊢
        exact ⟨h1, List.eq_nil_of_length_eq_zero h2, List.eq_nil_of_length_eq_zero h3⟩
    · have h1 := hi.iteratesP
      have h2 := hi.iteratesD
      split at h1
      · rename_i hk
        simp only [hk, if_true] at h2 ⊢
        exact ⟨h1.1, h1.2, h2.1, h2.2⟩
      · rename_i hk
        simp only [hk] at h2 ⊢
        exact ⟨h1, h2⟩

/-- **C41, negative.** `damp`, `atol` and `conlim` have no effect: for every arithmetic and all inputs, two calls that differ only in
these keywords end in the same way. -/
theorem C41_damp_ignored (A : V → U) (AT : U → V) (n : Nat) (b : U) (kw kw' : CraigKw S U V)
    (h : { kw with damp := kw'.damp, atol := kw'.atol, conlim := kw'.conlim } = kw') :
    craigSolve A AT n b kw = craigSolve A AT n b kw' := by
  rw [← h]
  rfl

end Verif.Solver
