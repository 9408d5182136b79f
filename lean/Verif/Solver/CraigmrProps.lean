import Verif.Solver.CraigMR
import Verif.Solver.LSQRProps

/-!
# Properties of CRAIG-MR for every arithmetic: C42
-/

namespace Verif.Solver
open Scalar Vect

variable {S U V : Type} [Scalar S] [Vect S U] [Vect S V]

/-- the effect of an iteration on the counters, the lists and the stopping code -/
structure CraigmrStepEff (kw : CraigmrKw S U V) (lim : Int) (s t : CraigmrLoop S U V) : Prop where
  itn : t.itn = s.itn + 1
  stop : ∃ direct, t.istop = craigmrStop lim t.itn direct ∧
    (direct = true → kw.window < t.itn ∧
      ∃ trnc nrg : S, t.dirErrors.getLast? = some (trnc / nrg) ∧ lt trnc (kw.etol * nrg) = true)
  norms : t.norms = if kw.storeResids then s.norms ++ [t.xNrgNorm2] else s.norms
  normalEqns : ∃ a, t.normalEqns = if kw.storeResids then s.normalEqns ++ [a] else s.normalEqns
  dirErrors : t.dirErrors.length = s.dirErrors.length + if t.itn > kw.window then 1 else 0
  iterates : t.iterates = if kw.storeIterates then s.iterates ++ [t.x] else s.iterates
  products : t.products ≤ s.products + 2

theorem craigmrBidiag_products {A : V → U} {AT : U → V} {kw : CraigmrKw S U V} {s : CraigmrLoop S U V} {r}
    (h : craigmrBidiag A AT kw s = .ok r) : r.2.2.2.2.2.2 ≤ s.products + 2 := by
  unfold craigmrBidiag at h
  obtain ⟨beta, -, h⟩ := except_bind_ok h
  split at h
  · obtain ⟨Nv, -, h⟩ := except_bind_ok h
    obtain ⟨alpha, -, h⟩ := except_bind_ok h
    split at h <;> cases h <;> simp
  · cases h; simp

theorem craigmrStep_eff {A : V → U} {AT : U → V} {kw : CraigmrKw S U V} {lim : Int} {s t : CraigmrLoop S U V}
    (h : craigmrStep A AT kw lim s = .ok t) : CraigmrStepEff kw lim s t := by
  unfold craigmrStep at h
  obtain ⟨⟨Mu, u, Nv, v, alpha, beta, products⟩, hb, h⟩ := except_bind_ok h
  obtain ⟨⟨betaHat, alphaHat, c, sn⟩, -, h⟩ := except_bind_ok h
  obtain ⟨cHat, -, h⟩ := except_bind_ok h
  obtain ⟨sHat, -, h⟩ := except_bind_ok h
  obtain ⟨k, -, h⟩ := except_bind_ok h
  cases h
  have hp := craigmrBidiag_products hb
  refine ⟨rfl, ⟨_, rfl, ?_⟩, rfl, ⟨_, rfl⟩, ?_, rfl, hp⟩
  · intro hd
    simp only [Bool.and_eq_true, decide_eq_true_eq] at hd
    refine ⟨hd.1, normList (s.dErr.set k (cHat * s.zetaHat)),
      sqrt (s.xNrgNorm2 + cHat * s.zetaHat * (cHat * s.zetaHat)), ?_, hd.2⟩
    simp only [hd.1, if_true, List.getLast?_append, List.getLast?_singleton, Option.some_or]
  · simp only
    split <;> simp

/-- invariant of the loop for every arithmetic; `s0` is the state before the loop -/
structure CraigmrInv (kw : CraigmrKw S U V) (lim : Int) (s0 s : CraigmrLoop S U V) : Prop where
  le : (s.itn : Int) ≤ max 0 lim
  stop : (s.itn = 0 ∧ s.istop = 0) ∨ (0 < s.itn ∧
    ∃ direct, s.istop = craigmrStop lim s.itn direct ∧
    (direct = true → kw.window < s.itn ∧
      ∃ trnc nrg : S, s.dirErrors.getLast? = some (trnc / nrg) ∧ lt trnc (kw.etol * nrg) = true))
  zero : s.itn = 0 → s = s0
  norms : if kw.storeResids then s.norms.length = s.itn + 1 ∧ s.norms.getLast? = some s.xNrgNorm2 else s.norms = []
  normalEqns : s.normalEqns.length = if kw.storeResids then s.itn else 0
  iterates : if kw.storeIterates then s.iterates.length = s.itn + 1 ∧ s.iterates.getLast? = some s.x else s.iterates = []
  dirErrors : s.dirErrors.length = s.itn - kw.window
  products : s.products ≤ 2 * s.itn + 1

theorem craigmrStep_inv {A : V → U} {AT : U → V} {kw : CraigmrKw S U V} {lim : Int} {s0 : CraigmrLoop S U V}
    (s t : CraigmrLoop S U V)
    (hs : CraigmrInv kw lim s0 s) (hc : craigmrCont lim s = true) (h : craigmrStep A AT kw lim s = .ok t) :
    CraigmrInv kw lim s0 t := by
  have e := craigmrStep_eff h
  simp only [craigmrCont, Bool.and_eq_true, decide_eq_true_eq] at hc
  obtain ⟨direct, h1, h2⟩ := e.stop
  obtain ⟨a, hn⟩ := e.normalEqns
  refine ⟨?_, Or.inr ⟨by rw [e.itn]; omega, direct, h1, h2⟩, ?_, ?_, ?_, ?_, ?_, ?_⟩
  · have := e.itn; omega
  · intro h0; have := e.itn; omega
  · have := hs.norms
    rw [e.norms, e.itn]
    split at this
    · rename_i hk
      simp only [hk, if_true, List.length_append, List.length_singleton, this.1, List.getLast?_append, List.getLast?_singleton,
        Option.some_or, and_self]
    · rename_i hk
      simp [hk, this]
  · rw [hn, e.itn]
    have := hs.normalEqns
    split at this
    · rename_i hk
      simp [hk, this]
    · rename_i hk
      simp [hk, this]
  · have := hs.iterates
    rw [e.iterates, e.itn]
    split at this
    · rename_i hk
      simp only [hk, if_true, List.length_append, List.length_singleton, this.1, List.getLast?_append, List.getLast?_singleton,
        Option.some_or, and_self]
    · rename_i hk
      simp [hk, this]
  · rw [e.dirErrors, hs.dirErrors, e.itn]
    split <;> omega
  · have := hs.products
    have := e.products
    rw [e.itn]; omega

theorem craigmrVectors_products {AT : U → V} {kw : CraigmrKw S U V} {b : U} {r} (h : craigmrVectors AT kw b = .ok r) :
    r.2.2.2.2.2.2 ≤ 1 := by
  unfold craigmrVectors at h
  obtain ⟨beta, hb, h⟩ := except_bind_ok h
  split at h
  · obtain ⟨alpha, ha, h⟩ := except_bind_ok h
    split at h <;> cases h <;> simp
  · cases h; simp

theorem craigmrStart_inv {kw : CraigmrKw S U V} {lim : Int} {Mu u : U} {beta : S} {Nv : Option V} {v : V} {alpha : S} {p : Nat}
    (hp : p ≤ 1) {s : CraigmrLoop S U V} (h : craigmrStart kw Mu u beta Nv v alpha p = .ok s) :
    CraigmrInv kw lim s s ∧ s.x = zeros := by
  unfold craigmrStart at h
  obtain ⟨c, -, h⟩ := except_bind_ok h
  obtain ⟨sn, -, h⟩ := except_bind_ok h
  cases h
  refine ⟨?_, rfl⟩
  cases hk : kw.storeResids <;> cases hi : kw.storeIterates <;>
    exact ⟨by simp, Or.inl ⟨rfl, rfl⟩, fun _ => rfl, by simp [hk], by simp [hk], by simp [hi], by simp, by simpa using hp⟩

theorem craigmrSolve_cases {A : V → U} {AT : U → V} {m n : Nat} {b : U} {kw : CraigmrKw S U V} {res : CraigmrRes S U}
    {s : CraigmrLoop S U V} (h : craigmrSolve A AT m n b kw = .ok (res, s)) :
    ∃ s0, CraigmrInv kw (craigmrLimit m n kw.itnlim) s0 s ∧ s0.x = zeros ∧ craigmrCont (craigmrLimit m n kw.itnlim) s = false ∧
      res = craigmrResult s := by
  unfold craigmrSolve at h
  obtain ⟨⟨Mu, u, beta, Nv, v, alpha, p⟩, h1, h⟩ := except_bind_ok h
  obtain ⟨s0, h2, h⟩ := except_bind_ok h
  obtain ⟨j1, j2⟩ := craigmrStart_inv (lim := craigmrLimit m n kw.itnlim) (craigmrVectors_products h1) h2
  obtain ⟨t, h3, h⟩ := except_bind_ok h
  have h5 : craigmrResult t = res ∧ t = s := by injection h with h; simpa using h
  obtain ⟨rfl, rfl⟩ := h5
  unfold craigmrLoop at h3
  obtain ⟨i1, i2⟩ := exceptLoop_inv (fun s => CraigmrInv kw (craigmrLimit m n kw.itnlim) s0 s)
    (fun s t hs hc ht => craigmrStep_inv s t hs hc ht) _ j1 t h3
  exact ⟨s0, i1, j2, i2, rfl⟩

/-! ### C42 -/

/-- **C42.** For every arithmetic, operator, preconditioners, right-hand side and keywords for which CRAIG-MR returns: at most
`itnlim` iterations were made (`min(m, n)` if `itnlim` is `None`); `istop` is 0, 7 or 8: it is 0 only if the limit is not positive,
and then the result is the zero vector and no iteration was made; it is 7 exactly when the iteration count has reached a positive
limit; it is 8 only after more than `window` iterations and if the last recorded direct error estimate was below `etol`; `status`
and `optimal` agree with `istop`; the stored lists have one entry per iterate; at most `2 itn + 1` products were made. -/
theorem C42_status (A : V → U) (AT : U → V) (m n : Nat) (b : U) (kw : CraigmrKw S U V) (res : CraigmrRes S U)
    (s : CraigmrLoop S U V) (h : craigmrSolve A AT m n b kw = .ok (res, s)) :
    let lim := kw.itnlim.getD (min m n : Nat)
    (res.itn : Int) ≤ max 0 lim ∧ res.istop ∈ [0, 7, 8] ∧
    (res.istop = 0 ↔ lim ≤ 0) ∧ (lim ≤ 0 → res.itn = 0 ∧ res.x = zeros) ∧
    (res.istop = 7 ↔ 1 ≤ lim ∧ (res.itn : Int) = lim) ∧
    (res.istop = 8 → kw.window < res.itn ∧ (res.itn : Int) < lim ∧
      ∃ trnc nrg : S, res.dirErrors.getLast? = some (trnc / nrg) ∧ lt trnc (kw.etol * nrg) = true) ∧
    (res.status = if res.istop = 0 then "solution is zero" else if res.istop = 7 then "max iterations" else "direct error small") ∧
    (res.optimal = true ↔ res.istop = 8) ∧
    res.nMatvec = 2 * res.itn ∧ s.products ≤ 2 * res.itn + 1 ∧
    (if kw.storeResids then res.norms.length = res.itn + 1 ∧ res.normalEqns.length = res.itn
     else res.norms = [] ∧ res.normalEqns = []) ∧
    (if kw.storeIterates then res.iterates.length = res.itn + 1 ∧ res.iterates.getLast? = some res.x else res.iterates = []) ∧
    res.dirErrors.length = res.itn - kw.window := by
  obtain ⟨s0, hi, hx0, hc, rfl⟩ := craigmrSolve_cases h
  have hlim : kw.itnlim.getD (min m n : Nat) = craigmrLimit m n kw.itnlim := rfl
  simp only [hlim]
  generalize craigmrLimit m n kw.itnlim = lim at *
  have hle := hi.le
  have hx : (craigmrResult s).x = s.x := rfl
  have hitn : (craigmrResult s).itn = s.itn := rfl
  have hist : (craigmrResult s).istop = s.istop := rfl
  rw [hx, hitn, hist]
  simp only [craigmrCont, Bool.and_eq_false_iff, decide_eq_false_iff_not] at hc
  have key : s.istop ∈ [0, 7, 8] ∧ (s.istop = 0 ↔ lim ≤ 0) ∧ (lim ≤ 0 → s.itn = 0 ∧ s.x = zeros) ∧
      (s.istop = 7 ↔ 1 ≤ lim ∧ (s.itn : Int) = lim) ∧
      (s.istop = 8 → kw.window < s.itn ∧ (s.itn : Int) < lim ∧
        ∃ trnc nrg : S, s.dirErrors.getLast? = some (trnc / nrg) ∧ lt trnc (kw.etol * nrg) = true) := by
    rcases hi.stop with ⟨h0, h0'⟩ | ⟨h0, direct, h1, h2⟩
    · rw [h0']
      refine ⟨by simp, ?_, fun _ => ⟨h0, by rw [hi.zero h0, hx0]⟩, ?_, fun h => by cases h⟩
      · constructor
        · intro _
          rcases hc with h | h
          · exact absurd h0' h
          · omega
        · intro _; rfl
      · constructor
        · intro h; cases h
        · rintro ⟨h, h'⟩; omega
    · unfold craigmrStop at h1
      have hlp : 1 ≤ lim := by omega
      by_cases hl : (s.itn : Int) ≥ lim
      · rw [if_pos hl] at h1
        rw [h1]
        refine ⟨by simp, ⟨fun h => (by cases h), fun h => by omega⟩, fun h => by omega, ⟨fun _ => ⟨hlp, by omega⟩, fun _ => rfl⟩,
          fun h => by cases h⟩
      · rw [if_neg hl] at h1
        cases direct with
        | false =>
          rcases hc with h | h
          · exact absurd h1 h
          · omega
        | true =>
          simp only [if_true] at h1
          rw [h1]
          refine ⟨by simp, ⟨fun h => (by cases h), fun h => by omega⟩, fun h => by omega, ⟨fun h => (by cases h), fun h => by omega⟩,
            fun _ => ⟨(h2 rfl).1, by omega, (h2 rfl).2⟩⟩
  obtain ⟨k1, k2, k3, k4, k5⟩ := key
  refine ⟨hle, k1, k2, k3, k4, k5, ?_, ?_, rfl, hi.products, ?_, hi.iterates, hi.dirErrors⟩
  · simp only [List.mem_cons, List.not_mem_nil, or_false] at k1
    have hs : (craigmrResult s).status = lsqrStatus s.istop := rfl
    rw [hs]
    rcases k1 with h | h | h <;> rw [h] <;> rfl
  · simp only [List.mem_cons, List.not_mem_nil, or_false] at k1
    have hs : (craigmrResult s).optimal = decide (s.istop ∈ [1, 2, 4, 5, 8]) := rfl
    rw [hs]
    rcases k1 with h | h | h <;> simp [h]
  · have h1 := hi.norms
    have h2 := hi.normalEqns
    split at h1
    · rename_i hk
      simp only [hk, if_true] at h2 ⊢
      exact ⟨h1.1, h2⟩
    · rename_i hk
      simp only [hk] at h2 ⊢
      exact ⟨h1, List.eq_nil_of_length_eq_zero h2⟩

/-- **C42, negative.** `damp`, `atol`, `btol` and `conlim` have no effect: for every arithmetic and all inputs, two calls that differ
only in these keywords end in the same way. -/
theorem C42_damp_ignored (A : V → U) (AT : U → V) (m n : Nat) (b : U) (kw kw' : CraigmrKw S U V)
    (h : { kw with damp := kw'.damp, atol := kw'.atol, btol := kw'.btol, conlim := kw'.conlim } = kw') :
    craigmrSolve A AT m n b kw = craigmrSolve A AT m n b kw' := by
  rw [← h]
  rfl

end Verif.Solver
