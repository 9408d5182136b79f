import Verif.Solver.Options
import Verif.Solver.MinresProps

/-!
# C48: keyword options

`abstol`, `reltol` and `precon` given to the constructor of CG, CGS, BiCGSTAB, TFQMR and `matvec_max` given to `solve`
take effect (`C48_*_partial`).  The names `atol` and `rtol` of the documentation are never read
(`C48_documented_tolerances_ignored`), a budget given to a constructor is never read (`C48_constructor_budget_ignored`),
and MINRES ignores the tolerances and the preconditioner given to its constructor (`C48_minres_constructor_ignored`).
-/

namespace Verif.Solver
open Scalar Vect

variable {S V : Type} [Scalar S] [Vect S V]

/-- what the constructor makes of a dictionary which holds, at the four keys it reads, a value of the right type or none -/
structure Given (d : Kwargs S V) (abstol reltol : S) (precon : Option (V → V)) : Prop where
  habs : d "abstol" = some (.num abstol) ∨ d "abstol" = none ∧ abstol = lit (1 / 100000000)
  hrel : d "reltol" = some (.num reltol) ∨ d "reltol" = none ∧ reltol = lit (1 / 1000000)
  hpre : (∃ M, d "precon" = some (.op M) ∧ precon = some M) ∨ (d "precon" = none ∨ d "precon" = some .none) ∧ precon = none

omit [Vect S V] in
theorem krylovInit_given {d : Kwargs S V} {a r : S} {M : Option (V → V)} (h : Given d a r M) :
    krylovInit d = .ok { abstol := a, reltol := r, precon := M } := by
  obtain ⟨h1, h2, h3⟩ := h
  have e1 : d.getNum "abstol" (lit (1 / 100000000)) = .ok a := by
    unfold Kwargs.getNum
    rcases h1 with h1 | ⟨h1, rfl⟩ <;> rw [h1]
  have e2 : d.getNum "reltol" (lit (1 / 1000000)) = .ok r := by
    unfold Kwargs.getNum
    rcases h2 with h1 | ⟨h1, rfl⟩ <;> rw [h1]
  have e3 : d.getOp "precon" = .ok M := by
    unfold Kwargs.getOp
    rcases h3 with ⟨M, h1, rfl⟩ | ⟨h1 | h1, rfl⟩ <;> rw [h1]
  unfold krylovInit
  rw [e1, e2, e3]
  rfl

omit [Vect S V] in
theorem krylovInit_ok {d : Kwargs S V} {o : KrylovOpts S V} (h : krylovInit d = .ok o) : Given d o.abstol o.reltol o.precon := by
  unfold krylovInit at h
  cases e1 : d.getNum "abstol" (lit (1 / 100000000)) with
  | error e => rw [e1] at h; cases h
  | ok a =>
    cases e2 : d.getNum "reltol" (lit (1 / 1000000)) with
    | error e => rw [e1, e2] at h; cases h
    | ok r =>
      cases e3 : d.getOp "precon" with
      | error e => rw [e1, e2, e3] at h; cases h
      | ok M =>
        rw [e1, e2, e3] at h
        cases h
        refine ⟨?_, ?_, ?_⟩
        · unfold Kwargs.getNum at e1
          split at e1 <;> simp_all
        · unfold Kwargs.getNum at e2
          split at e2 <;> simp_all
        · unfold Kwargs.getOp at e3
          split at e3 <;> simp_all

/-- what `solve` makes of a dictionary which holds, at `guess` and `matvec_max`, a value of the right type or none -/
structure SolveGiven (d : Kwargs S V) (guess : Option V) (matvecMax : Option Nat) : Prop where
  hg : (∃ g, d "guess" = some (.vec g) ∧ guess = some g) ∨ d "guess" = none ∧ guess = none
  hm : (∃ k, d "matvec_max" = some (.nat k) ∧ matvecMax = some k) ∨ d "matvec_max" = none ∧ matvecMax = none

/-- a flag of `CG.solve` is given as a boolean or not at all -/
def FlagGiven (d : Kwargs S V) (key : String) : Prop := (∃ b, d key = some (.bool b)) ∨ d key = none

omit [Scalar S] [Vect S V] in
theorem getVec_given {d : Kwargs S V} {g : Option V} {m : Option Nat} (h : SolveGiven d g m) : d.getVec "guess" = .ok g := by
  unfold Kwargs.getVec
  rcases h.hg with ⟨g, h1, rfl⟩ | ⟨h1, rfl⟩ <;> rw [h1]

omit [Scalar S] [Vect S V] in
theorem getNat_given {d : Kwargs S V} {g : Option V} {m : Option Nat} (h : SolveGiven d g m) : d.getNat "matvec_max" = .ok m := by
  unfold Kwargs.getNat
  rcases h.hm with ⟨g, h1, rfl⟩ | ⟨h1, rfl⟩ <;> rw [h1]

omit [Scalar S] [Vect S V] in
theorem krylovKwargs_given {d : Kwargs S V} {g : Option V} {m : Option Nat} (h : SolveGiven d g m) :
    krylovKwargs d = .ok { guess := g, matvecMax := m } := by
  unfold krylovKwargs
  rw [getVec_given h, getNat_given h]
  rfl

omit [Scalar S] [Vect S V] in
theorem getBool_given {d : Kwargs S V} {key : String} (h : FlagGiven d key) (default : Bool) :
    ∃ b, d.getBool key default = .ok b ∧ (d key = none → b = default) ∧ (∀ c, d key = some (.bool c) → b = c) := by
  unfold Kwargs.getBool
  rcases h with ⟨b, h⟩ | h <;> rw [h]
  · exact ⟨b, rfl, fun h => (by cases h), fun c h => by cases h; rfl⟩
  · exact ⟨default, rfl, fun _ => rfl, fun c h => (by cases h)⟩

omit [Scalar S] [Vect S V] in
theorem cgKwargs_given {d : Kwargs S V} {g : Option V} {m : Option Nat} (h : SolveGiven d g m)
    (hc : d "check_symmetric" = none) (h1 : FlagGiven d "check_curvature") (h2 : FlagGiven d "store_resids")
    (h3 : FlagGiven d "store_iterates") (symOK : Bool) :
    ∃ k : CGKw V, cgKwargs symOK d = .ok k ∧ k.guess = g ∧ k.matvecMax = m ∧ k.Runs := by
  obtain ⟨b1, e1, -⟩ := getBool_given h1 true
  obtain ⟨b2, e2, -⟩ := getBool_given h2 false
  obtain ⟨b3, e3, -⟩ := getBool_given h3 false
  have e0 : d.getBool "check_symmetric" false = .ok false := by unfold Kwargs.getBool; rw [hc]
  unfold cgKwargs
  rw [e0, e1, e2, e3, getVec_given h, getNat_given h]
  exact ⟨_, rfl, rfl, rfl, rfl⟩

/-! ### Options that take effect -/

/-- the initial residual of CG, CGS, BiCGSTAB and TFQMR up to its sign: `rhs`, or `rhs - op * guess` -/
def startResid (op : V → V) (guess : Option V) (rhs : V) : V :=
  match guess with
  | some g => rhs - op g
  | none => rhs

/-- **C48**, part: the tolerances given to the constructor of CG, CGS, BiCGSTAB or TFQMR, or their defaults, decide, together
with the initial residual norm, whether `converged` is reported, whatever else is in the dictionaries.  In every arithmetic. -/
theorem C48_tolerances_partial (op : V → V) (n : Nat) (ctor : Kwargs S V) (a r : S) (M : Option (V → V)) (hc : Given ctor a r M)
    (rhs : V) (kw : Kwargs S V) (g : Option V) (m : Option Nat) (hk : SolveGiven kw g m) :
    (∃ res products, cgsCall op n ctor rhs kw = .ok (res, products) ∧
      res.residNorm0 = abs (sqrt (dot (startResid op g rhs) (startResid op g rhs))) ∧
      res.converged = le res.residNorm (pymax a (r * res.residNorm0))) ∧
    (∃ res products, biCall op n ctor rhs kw = .ok (res, products) ∧
      res.residNorm0 = abs (sqrt (dot (startResid op g rhs) (startResid op g rhs))) ∧
      res.converged = le res.residNorm (pymax a (r * res.residNorm0))) ∧
    (∀ res products, tfCall op n ctor rhs kw = .ok (res, products) →
      res.residNorm0 = abs (sqrt (dot (startResid op g rhs) (startResid op g rhs))) ∧
      ∃ k : S, res.converged = lt (res.residNorm * sqrt (k + lit 1)) (pymax a (r * res.residNorm0))) ∧
    (∀ symOK, kw "check_symmetric" = none → FlagGiven kw "check_curvature" → FlagGiven kw "store_resids" →
      FlagGiven kw "store_iterates" →
      ∃ res products ρ ρ0, cgCall op symOK n ctor rhs kw = .ok (res, products) ∧ res.residNorm = some ρ ∧
        res.residNorm0 = some ρ0 ∧ res.converged = le ρ (pymax a (r * ρ0))) := by
  refine ⟨?_, ?_, ?_, ?_⟩
  · unfold cgsCall
    rw [krylovInit_given hc, krylovKwargs_given hk]
    refine ⟨_, _, rfl, ?_, rfl⟩
    cases g <;> rfl
  · unfold biCall
    rw [krylovInit_given hc, krylovKwargs_given hk]
    refine ⟨_, _, rfl, ?_, rfl⟩
    cases g <;> rfl
  · intro res products h
    unfold tfCall at h
    rw [krylovInit_given hc, krylovKwargs_given hk] at h
    have key : ∀ (t ρ0 : S) (s : TFLoop S V), tfResult t ρ0 s = .ok (res, products) →
        res.residNorm0 = ρ0 ∧ ∃ k : S, res.converged = lt (res.residNorm * sqrt (k + lit 1)) t := by
      intro t ρ0 s h
      unfold tfResult at h
      split at h
      · cases h
      · cases h; exact ⟨rfl, _, rfl⟩
    obtain ⟨h1, k, h2⟩ := key _ _ _ h
    constructor
    · rw [h1]; cases g <;> rfl
    · refine ⟨k, ?_⟩
      rw [h2, h1]
  · intro symOK h0 h1 h2 h3
    obtain ⟨k, hk, -, -, hr⟩ := cgKwargs_given hk h0 h1 h2 h3 symOK
    unfold cgCall
    rw [krylovInit_given hc, hk]
    change ∃ res products ρ ρ0, Except.ok (cgSolve op _ n {} rhs k) = _ ∧ _
    rw [cgSolve_eq hr]
    refine ⟨_, _, _, _, rfl, rfl, rfl, ?_⟩
    have : ∀ o : KrylovOpts S V, (cgInit op o k {} rhs).2 = pymax o.abstol (o.reltol * (cgInit op o k {} rhs).1.residNorm) := by
      intro o
      unfold cgInit
      cases k.guess <;> rfl
    simp only
    rw [this]

/-- **C48**, part: `matvec_max` given to `solve` bounds the products with the operator.  The bounds are those of the code, see
C26, C31, C32, C33: the product for the initial guess is not always counted, and CGS does its products in pairs. -/
theorem C48_budget_partial (op : V → V) (n : Nat) (ctor : Kwargs S V) (a r : S) (M : Option (V → V)) (hc : Given ctor a r M)
    (rhs : V) (kw : Kwargs S V) (g : Option V) (k : Nat) (hk : SolveGiven kw g (some k)) :
    (∃ res products, cgsCall op n ctor rhs kw = .ok (res, products) ∧
      products.length ≤ k + 1 + (if g.isSome then 1 else 0)) ∧
    (∃ res products, biCall op n ctor rhs kw = .ok (res, products) ∧ products.length ≤ max k 1) ∧
    (∀ res products, tfCall op n ctor rhs kw = .ok (res, products) → products.length ≤ k + (if g.isSome then 1 else 0)) ∧
    (∀ symOK, kw "check_symmetric" = none → FlagGiven kw "check_curvature" → FlagGiven kw "store_resids" →
      FlagGiven kw "store_iterates" →
      ∃ res products, cgCall op symOK n ctor rhs kw = .ok (res, products) ∧ products.length ≤ max k 1) := by
  refine ⟨?_, ?_, ?_, ?_⟩
  · unfold cgsCall
    rw [krylovInit_given hc, krylovKwargs_given hk]
    have := C31_budget_partial op { abstol := a, reltol := r, precon := M } n rhs { guess := g, matvecMax := some k }
    simp only [Option.getD_some] at this
    exact ⟨(cgsSolve op { abstol := a, reltol := r, precon := M } n rhs { guess := g, matvecMax := some k }).1,
      (cgsSolve op { abstol := a, reltol := r, precon := M } n rhs { guess := g, matvecMax := some k }).2, rfl, by omega⟩
  · unfold biCall
    rw [krylovInit_given hc, krylovKwargs_given hk]
    exact ⟨_, _, rfl, (C32_budget op { abstol := a, reltol := r, precon := M } n rhs { guess := g, matvecMax := some k }).2.1⟩
  · intro res products h
    unfold tfCall at h
    rw [krylovInit_given hc, krylovKwargs_given hk] at h
    have := C33_budget_partial op { abstol := a, reltol := r, precon := M } n rhs { guess := g, matvecMax := some k }
    change tfSolve op { abstol := a, reltol := r, precon := M } n rhs { guess := g, matvecMax := some k } = _ at h
    simp only at this
    by_cases ht : le (Scalar.abs (sqrt (dot (startResid op g rhs) (startResid op g rhs))))
        (pymax a (r * Scalar.abs (sqrt (dot (startResid op g rhs) (startResid op g rhs))))) = true ∨ k = 0
    · have := this.1 ht
      rw [this] at h; cases h
    · obtain ⟨res', products', h1, h2, h3⟩ := this.2 ht
      rw [h] at h1
      cases h1
      simp only [Option.getD_some] at h3
      omega
  · intro symOK h0 h1 h2 h3
    obtain ⟨k', hk', -, hm, hr⟩ := cgKwargs_given hk h0 h1 h2 h3 symOK
    unfold cgCall
    rw [krylovInit_given hc, hk']
    have := (C26_budget op { abstol := a, reltol := r, precon := M } n {} rhs k' hr).2.1
    rw [hm] at this
    exact ⟨_, _, rfl, this⟩

theorem biStep_precon (op M : V → V) (t : S) (mm : Nat) (r0 : V) (s : BiLoop S V) (v : V)
    (hv : v ∈ (biStep op (some M) t mm r0 s).calls) : v ∈ s.calls ∨ ∃ u, v = M u := by
  unfold biStep at hv
  simp only at hv
  split at hv
  · simp only [List.mem_append, List.mem_cons, List.not_mem_nil, or_false] at hv
    exact hv.imp_right fun h => ⟨_, h⟩
  · split at hv
    · simp only [List.mem_append, List.mem_cons, List.not_mem_nil, or_false] at hv
      exact hv.imp_right fun h => ⟨_, h⟩
    · simp only [List.mem_append, List.mem_cons, List.not_mem_nil, or_false] at hv
      exact hv.imp_right fun h => h.elim (fun h => ⟨_, h⟩) (fun h => ⟨_, h⟩)

theorem tfStep_precon (op M : V → V) (t : S) (mm : Nat) (r0 : V) (s : TFLoop S V) (v : V)
    (hv : v ∈ (tfStep op (some M) t mm r0 s).calls) : v ∈ s.calls ∨ ∃ u, v = M u := by
  have key : ∀ w : V, v ∈ s.calls ++ [M w] → v ∈ s.calls ∨ ∃ u, v = M u := by
    intro w hv
    simp only [List.mem_append, List.mem_cons, List.not_mem_nil, or_false] at hv
    exact hv.imp_right fun h => ⟨_, h⟩
  unfold tfStep at hv
  simp only at hv
  split at hv
  · exact .inl hv
  · split at hv
    · exact key _ hv
    · simp only [tfFinal, List.mem_append, List.mem_cons, List.not_mem_nil, or_false] at hv
      rcases hv with hv | hv
      · exact key _ hv
      · exact .inr ⟨_, hv⟩

/-- **C48**, part: the preconditioner given to the constructor is used.  In CGS, BiCGSTAB and TFQMR every product with the
operator, except that for the initial guess, is with a vector returned by the preconditioner.  In CG the initial residual norm,
which sets the stopping threshold, is measured with the preconditioner. -/
theorem C48_precon_partial (op : V → V) (n : Nat) (ctor : Kwargs S V) (a r : S) (M : V → V) (hc : Given ctor a r (some M))
    (rhs : V) (kw : Kwargs S V) (g : Option V) (m : Option Nat) (hk : SolveGiven kw g m) :
    (∃ res products, cgsCall op n ctor rhs kw = .ok (res, products) ∧ ∀ v ∈ products, g = some v ∨ ∃ u, v = M u) ∧
    (∃ res products, biCall op n ctor rhs kw = .ok (res, products) ∧ ∀ v ∈ products, g = some v ∨ ∃ u, v = M u) ∧
    (∀ res products, tfCall op n ctor rhs kw = .ok (res, products) → ∀ v ∈ products, g = some v ∨ ∃ u, v = M u) ∧
    (∀ symOK, kw "check_symmetric" = none → FlagGiven kw "check_curvature" → FlagGiven kw "store_resids" →
      FlagGiven kw "store_iterates" →
      ∃ res products, cgCall op symOK n ctor rhs kw = .ok (res, products) ∧
        ∃ r0, r0 = (match g with | some g => -rhs + op g | none => -rhs) ∧
          res.residNorm0 = some (abs (sqrt (dot r0 (M r0))))) := by
  refine ⟨?_, ?_, ?_, ?_⟩
  · unfold cgsCall
    rw [krylovInit_given hc, krylovKwargs_given hk]
    refine ⟨_, _, rfl, ?_⟩
    refine (whileLoop_inv (fun s : CGSLoop S V => ∀ v ∈ s.calls, g = some v ∨ ∃ u, v = M u) ?_ _ ?_).1
    · intro s hs _ v hv
      rw [cgsStep_calls] at hv
      simp only [List.mem_append, List.mem_cons, List.not_mem_nil, or_false] at hv
      rcases hv with hv | hv | hv
      · exact hs v hv
      · exact .inr ⟨_, hv⟩
      · exact .inr ⟨_, hv⟩
    · cases g <;> simp
  · unfold biCall
    rw [krylovInit_given hc, krylovKwargs_given hk]
    refine ⟨_, _, rfl, ?_⟩
    refine (whileLoop_inv (fun s : BiLoop S V => ∀ v ∈ s.calls, g = some v ∨ ∃ u, v = M u) ?_ _ ?_).1
    · intro s hs _ v hv
      exact (biStep_precon op M _ _ _ s v hv).elim (hs v) .inr
    · cases g <;> simp
  · intro res products h
    unfold tfCall at h
    rw [krylovInit_given hc, krylovKwargs_given hk] at h
    have key : ∀ (t ρ0 : S) (s : TFLoop S V), tfResult t ρ0 s = .ok (res, products) → products = s.calls := by
      intro t ρ0 s h
      unfold tfResult at h
      split at h
      · cases h
      · cases h; rfl
    rw [key _ _ _ h]
    refine (whileLoop_inv (fun s : TFLoop S V => ∀ v ∈ s.calls, g = some v ∨ ∃ u, v = M u) ?_ _ ?_).1
    · intro s hs _ v hv
      exact (tfStep_precon op M _ _ _ s v hv).elim (hs v) .inr
    · intro v hv
      cases g with
      | none =>
        simp only at hv
        split at hv
        · cases hv
        · exact .inr ⟨_, List.mem_singleton.1 hv⟩
      | some g =>
        simp only at hv
        split at hv
        · exact .inl (congrArg some (List.mem_singleton.1 hv).symm)
        · rcases List.mem_append.1 hv with hv | hv
          · exact .inl (congrArg some (List.mem_singleton.1 hv).symm)
          · exact .inr ⟨_, List.mem_singleton.1 hv⟩
  · intro symOK h0 h1 h2 h3
    obtain ⟨k', hk', hg, -, hr⟩ := cgKwargs_given hk h0 h1 h2 h3 symOK
    unfold cgCall
    rw [krylovInit_given hc, hk']
    change ∃ res products, Except.ok (cgSolve op _ n {} rhs k') = _ ∧ _
    rw [cgSolve_eq hr]
    refine ⟨_, _, rfl, _, rfl, ?_⟩
    simp only [cgInit, hg, applyPrecon]
    cases g <;> rfl

/-! ### Options that are ignored -/

omit [Vect S V] in
theorem krylovInit_congr {d d' : Kwargs S V} (h1 : d "abstol" = d' "abstol") (h2 : d "reltol" = d' "reltol")
    (h3 : d "precon" = d' "precon") : krylovInit d = krylovInit d' := by
  simp only [krylovInit, Kwargs.getNum, Kwargs.getOp, h1, h2, h3]

/-- a call of one of the four solvers that use the options of the constructor -/
inductive KrylovClass where
  | cg | cgs | bicgstab | tfqmr

/-- the outcome of constructing a solver and solving: the solution, `converged`, `residNorm`, `nMatvec` and the arguments of the
products with the operator -/
def krylovCall (c : KrylovClass) (op : V → V) (symOK : Bool) (n : Nat) (ctor : Kwargs S V) (rhs : V) (kw : Kwargs S V) :
    Except PyError ((Option V × Bool × Option S × Nat) × List V) :=
  match c with
  | .cg => do
    let (res, products) ← cgCall op symOK n ctor rhs kw
    return ((res.x, res.converged, res.residNorm, res.nMatvec), products)
  | .cgs => do
    let (res, products) ← cgsCall op n ctor rhs kw
    return ((some res.x, res.converged, some res.residNorm, res.nMatvec), products)
  | .bicgstab => do
    let (res, products) ← biCall op n ctor rhs kw
    return ((some res.x, res.converged, some res.residNorm, res.nMatvec), products)
  | .tfqmr => do
    let (res, products) ← tfCall op n ctor rhs kw
    return ((some res.x, res.converged, some res.residNorm, res.nMatvec), products)

theorem krylovCall_congr (c : KrylovClass) (op : V → V) (symOK : Bool) (n : Nat) {ctor ctor' : Kwargs S V} (rhs : V)
    (kw : Kwargs S V) (h : krylovInit ctor = krylovInit ctor') :
    krylovCall c op symOK n ctor rhs kw = krylovCall c op symOK n ctor' rhs kw := by
  cases c <;> simp only [krylovCall, cgCall, cgsCall, biCall, tfCall, h]

/-- **C48 fails** for the tolerances under their documented names `atol` and `rtol` (`generic.py:28-30`): whatever values are
given, to the constructor or to `solve`, the outcome is that without them. -/
theorem C48_documented_tolerances_ignored (c : KrylovClass) (op : V → V) (symOK : Bool) (n : Nat) (ctor : Kwargs S V) (rhs : V)
    (kw : Kwargs S V) (atol rtol : KwVal S V) :
    krylovCall c op symOK n ((ctor.set "atol" atol).set "rtol" rtol) rhs kw = krylovCall c op symOK n ctor rhs kw ∧
    krylovCall c op symOK n ctor rhs ((kw.set "atol" atol).set "rtol" rtol) = krylovCall c op symOK n ctor rhs kw := by
  refine ⟨krylovCall_congr c op symOK n rhs kw (krylovInit_congr ?_ ?_ ?_), ?_⟩
  · simp [Kwargs.set]
  · simp [Kwargs.set]
  · simp [Kwargs.set]
  · have h1 : cgKwargs symOK ((kw.set "atol" atol).set "rtol" rtol) = cgKwargs symOK kw := by
      simp [cgKwargs, Kwargs.set, Kwargs.getBool, Kwargs.getVec, Kwargs.getNat]
    have h2 : krylovKwargs ((kw.set "atol" atol).set "rtol" rtol) = krylovKwargs kw := by
      simp [krylovKwargs, Kwargs.set, Kwargs.getVec, Kwargs.getNat]
    cases c <;> simp only [krylovCall, cgCall, cgsCall, biCall, tfCall, h1, h2]

/-- A budget or an initial guess given to the constructor is ignored (they are documented for `solve` only). -/
theorem C48_constructor_budget_ignored (c : KrylovClass) (op : V → V) (symOK : Bool) (n : Nat) (ctor : Kwargs S V) (rhs : V)
    (kw : Kwargs S V) (budget guess : KwVal S V) :
    krylovCall c op symOK n ((ctor.set "matvec_max" budget).set "guess" guess) rhs kw = krylovCall c op symOK n ctor rhs kw := by
  refine krylovCall_congr c op symOK n rhs kw (krylovInit_congr ?_ ?_ ?_) <;> simp [Kwargs.set]

/-- **C48 fails** for `guess=None`, the value that stands for an absent option everywhere else: `solve` of CG, CGS, BiCGSTAB and
TFQMR raises `AttributeError` (`None` has no `astype`), whatever the operator, the right-hand side, and the well-typed options
(for CG, unless it returns because the operator fails a requested symmetry check). -/
theorem C48_guess_none_raises (c : KrylovClass) (op : V → V) (n : Nat) (ctor : Kwargs S V) (a r : S)
    (M : Option (V → V)) (hc : Given ctor a r M) (rhs : V) (kw : Kwargs S V) (hs : FlagGiven kw "check_symmetric")
    (hu : FlagGiven kw "check_curvature") (hr : FlagGiven kw "store_resids") (hi : FlagGiven kw "store_iterates")
    (hg : kw "guess" = some .none) :
    krylovCall c op true n ctor rhs kw = .error (.attribute "astype") := by
  have h1 : cgKwargs true kw = .error (.attribute "astype") := by
    unfold cgKwargs
    obtain ⟨b1, e1, -⟩ := getBool_given hs false
    obtain ⟨b2, e2, -⟩ := getBool_given hu true
    obtain ⟨b3, e3, -⟩ := getBool_given hr false
    obtain ⟨b4, e4, -⟩ := getBool_given hi false
    have e5 : kw.getVec "guess" = .error (.attribute "astype") := by simp [Kwargs.getVec, hg]
    rw [e1, e2, e3, e4, e5]
    cases b1 <;> rfl
  have h2 : krylovKwargs kw = .error (.attribute "astype") := by
    unfold krylovKwargs
    have e5 : kw.getVec "guess" = .error (.attribute "astype") := by simp [Kwargs.getVec, hg]
    rw [e5]
    rfl
  cases c <;> simp only [krylovCall, cgCall, cgsCall, biCall, tfCall, h1, h2, krylovInit_given hc] <;> rfl

/-- Tolerances or a preconditioner given to `solve` of CG, CGS, BiCGSTAB or TFQMR are ignored. -/
theorem C48_solve_precon_ignored (c : KrylovClass) (op : V → V) (symOK : Bool) (n : Nat) (ctor : Kwargs S V) (rhs : V)
    (kw : Kwargs S V) (abstol reltol precon : KwVal S V) :
    krylovCall c op symOK n ctor rhs (((kw.set "abstol" abstol).set "reltol" reltol).set "precon" precon) =
      krylovCall c op symOK n ctor rhs kw := by
  have h1 : cgKwargs symOK (((kw.set "abstol" abstol).set "reltol" reltol).set "precon" precon) = cgKwargs symOK kw := by
    simp [cgKwargs, Kwargs.set, Kwargs.getBool, Kwargs.getVec, Kwargs.getNat]
  have h2 : krylovKwargs (((kw.set "abstol" abstol).set "reltol" reltol).set "precon" precon) = krylovKwargs kw := by
    simp [krylovKwargs, Kwargs.set, Kwargs.getVec, Kwargs.getNat]
  cases c <;> simp only [krylovCall, cgCall, cgsCall, biCall, tfCall, h1, h2]

/-- **C48 fails** for MINRES: whatever tolerances and preconditioner its constructor accepts, the outcome of `solve` is that of
a solver constructed without options.  In particular a preconditioner given to the constructor, as documented by
`KrylovMethod`, is silently not used. -/
theorem C48_minres_constructor_ignored (op : V → V) (symOK preconSymOK : Bool) (eps : S) (n : Nat) (ctor : Kwargs S V) (a r : S)
    (M : Option (V → V)) (hc : Given ctor a r M) (b : V) (kw : Kwargs S V) :
    minresCall op symOK preconSymOK eps n ctor b kw = minresCall op symOK preconSymOK eps n (fun _ => none) b kw := by
  unfold minresCall
  rw [krylovInit_given hc]
  rfl

omit [Vect S V] in
theorem minresKwargs_ok {symOK preconSymOK : Bool} {d : Kwargs S V} {k : MinresKw S V}
    (h : minresKwargs symOK preconSymOK d = .ok k) :
    (∀ M, d "precon" = some (.op M) → k.precon = some M) ∧ (∀ a, d "shift" = some (.num a) → k.shift = a) ∧
    (∀ a, d "itnlim" = some (.nat a) → k.itnlim = some a) ∧ (k.window = 0 → d "window" = some (.nat 0)) := by
  unfold minresKwargs at h
  obtain ⟨precon, e1, h⟩ := except_bind_ok h
  obtain ⟨shift, e2, h⟩ := except_bind_ok h
  obtain ⟨check, e3, h⟩ := except_bind_ok h
  obtain ⟨itnlim, e4, h⟩ := except_bind_ok h
  obtain ⟨rtol, e5, h⟩ := except_bind_ok h
  obtain ⟨etol, e6, h⟩ := except_bind_ok h
  obtain ⟨st, e7, h⟩ := except_bind_ok h
  obtain ⟨window, e8, h⟩ := except_bind_ok h
  cases h
  refine ⟨fun M hM => ?_, fun a ha => ?_, fun a ha => ?_, fun ha => ?_⟩
  · simp only [Kwargs.getOp, hM] at e1; cases e1; rfl
  · simp only [Kwargs.getNum, ha] at e2; cases e2; rfl
  · simp only [Kwargs.getNat, ha] at e4; cases e4; rfl
  · change window.getD 5 = 0 at ha
    unfold Kwargs.getNat at e8
    split at e8
    · cases e8; cases ha
    · rename_i _ hd; cases e8; cases ha; exact hd
    · cases e8

/-- For MINRES the options given to `solve` take effect: the reported initial norm is measured with the given preconditioner,
and no more products are done than the given iteration limit. -/
theorem C48_minres_solve_partial (op : V → V) (symOK preconSymOK : Bool) (eps : S) (n : Nat) (b : V) (kw : Kwargs S V) (M : V → V)
    (hM : kw "precon" = some (.op M)) (lim : Nat) (hl : kw "itnlim" = some (.nat lim)) (hw : kw "window" ≠ some (.nat 0))
    (res : MinresRes S V) (products : List V)
    (h : minresCall op symOK preconSymOK eps n (fun _ => none) b kw = .ok (res, products)) :
    res.residNorm0 = (if gt (dot b (M b)) (lit 0) then sqrt (dot b (M b)) else dot b (M b)) ∧ products.length ≤ lim := by
  unfold minresCall at h
  obtain ⟨-, -, h⟩ := except_bind_ok h
  obtain ⟨k, hk, h⟩ := except_bind_ok h
  obtain ⟨h1, -, h3, h4⟩ := minresKwargs_ok hk
  have h1 := h1 M hM
  have h3 := h3 lim hl
  have hw' : k.window ≠ 0 := fun h => hw (h4 h)
  constructor
  · have : res.residNorm0 = (minresStart k b).2 := by
      unfold minresSolve at h
      simp only at h
      split at h
      · cases h; rfl
      · split at h
        · cases h
        · cases h; rfl
    rw [this]
    simp only [minresStart, h1, applyPrecon]
  · obtain ⟨res', products', h', -, -, h6, -⟩ := C34_status_partial op eps n {} b k hw'
    rw [h] at h'
    cases h'
    rw [h3] at h6
    exact h6

/-- **C48 (partial).** For MINRES every option given to `solve` takes effect, by its documented name: the outcome of
`Minres(op).solve(b, precon=M, shift=σ, check=c, itnlim=lim, rtol=r, etol=e, store_iterates=st, window=w)` is that of the
algorithm run with these values, and with the documented default for an option which is left out. -/
theorem C48_minres_options_partial (op : V → V) (symOK preconSymOK : Bool) (eps : S) (n : Nat) (b : V) (kw : Kwargs S V)
    (M : Option (V → V)) (σ r e : S) (c st : Bool) (lim : Option Nat) (w : Nat)
    (hM : (∃ M', kw "precon" = some (.op M') ∧ M = some M') ∨ (kw "precon" = none ∧ M = none))
    (hσ : kw "shift" = some (.num σ) ∨ (kw "shift" = none ∧ σ = lit 0))
    (hc : kw "check" = some (.bool c) ∨ (kw "check" = none ∧ c = true))
    (hl : (∃ k, kw "itnlim" = some (.nat k) ∧ lim = some k) ∨ (kw "itnlim" = none ∧ lim = none))
    (hr : kw "rtol" = some (.num r) ∨ (kw "rtol" = none ∧ r = lit (1 / 1000000000000)))
    (he : kw "etol" = some (.num e) ∨ (kw "etol" = none ∧ e = lit (1 / 1000000)))
    (hst : kw "store_iterates" = some (.bool st) ∨ (kw "store_iterates" = none ∧ st = false))
    (hw : kw "window" = some (.nat w) ∨ (kw "window" = none ∧ w = 5)) :
    minresCall op symOK preconSymOK eps n (fun _ => none) b kw =
      minresSolve op eps n {} b { precon := M, shift := σ, check := c, symOK := symOK, preconSymOK := preconSymOK,
                                  itnlim := lim, rtol := r, etol := e, storeIterates := st, window := w } := by
  have e1 : kw.getOp "precon" = .ok M := by
    unfold Kwargs.getOp
    rcases hM with ⟨M, h1, rfl⟩ | ⟨h1, rfl⟩ <;> rw [h1]
  have e2 : kw.getNum "shift" (lit 0) = .ok σ := by
    unfold Kwargs.getNum
    rcases hσ with h1 | ⟨h1, rfl⟩ <;> rw [h1]
  have e3 : kw.getBool "check" true = .ok c := by
    unfold Kwargs.getBool
    rcases hc with h1 | ⟨h1, rfl⟩ <;> rw [h1]
  have e4 : kw.getNat "itnlim" = .ok lim := by
    unfold Kwargs.getNat
    rcases hl with ⟨k, h1, rfl⟩ | ⟨h1, rfl⟩ <;> rw [h1]
  have e5 : kw.getNum "rtol" (lit (1 / 1000000000000)) = .ok r := by
    unfold Kwargs.getNum
    rcases hr with h1 | ⟨h1, rfl⟩ <;> rw [h1]
  have e6 : kw.getNum "etol" (lit (1 / 1000000)) = .ok e := by
    unfold Kwargs.getNum
    rcases he with h1 | ⟨h1, rfl⟩ <;> rw [h1]
  have e7 : kw.getBool "store_iterates" false = .ok st := by
    unfold Kwargs.getBool
    rcases hst with h1 | ⟨h1, rfl⟩ <;> rw [h1]
  have e8 : ∃ w', kw.getNat "window" = .ok w' ∧ w'.getD 5 = w := by
    unfold Kwargs.getNat
    rcases hw with h1 | ⟨h1, rfl⟩ <;> rw [h1] <;> exact ⟨_, rfl, rfl⟩
  obtain ⟨w', e8, rfl⟩ := e8
  unfold minresCall minresKwargs
  rw [e1, e2, e3, e4, e5, e6, e7, e8]
  rfl

/-! ### The hypotheses are met -/

/-- a constructor dictionary with two options, one of them with a documented name that is not read -/
def exampleCtor (r t : S) (M : V → V) : Kwargs S V := fun key =>
  if key = "reltol" then some (.num r) else if key = "precon" then some (.op M) else if key = "rtol" then some (.num t) else none

/-- a dictionary for `solve` -/
def exampleKw (g : V) : Kwargs S V := fun key =>
  if key = "guess" then some (.vec g) else if key = "matvec_max" then some (.nat 3) else
  if key = "store_iterates" then some (.bool true) else none

example (r t : S) (M : V → V) : Given (exampleCtor r t M) (lit (1 / 100000000)) r (some M) :=
  ⟨.inr ⟨by simp [exampleCtor], rfl⟩, .inl (by simp [exampleCtor]), .inl ⟨M, by simp [exampleCtor], rfl⟩⟩

example (g : V) : SolveGiven (S := S) (exampleKw g) (some g) (some 3) :=
  ⟨.inl ⟨g, by simp [exampleKw], rfl⟩, .inl ⟨3, by simp [exampleKw], rfl⟩⟩

example (g : V) : exampleKw (S := S) g "check_symmetric" = none ∧ FlagGiven (S := S) (exampleKw g) "check_curvature" ∧
    FlagGiven (S := S) (exampleKw g) "store_resids" ∧ FlagGiven (S := S) (exampleKw g) "store_iterates" :=
  ⟨by simp [exampleKw], .inr (by simp [exampleKw]), .inr (by simp [exampleKw]), .inl ⟨true, by simp [exampleKw]⟩⟩

/-- the hypotheses of `C48_guess_none_raises` are met: `TFQMR(op).solve(rhs, guess=None)` -/
example (op : V → V) (n : Nat) (rhs : V) :
    krylovCall .tfqmr op true n (fun _ => none) rhs (fun key => if key = "guess" then some .none else none) =
      .error (.attribute "astype") :=
  C48_guess_none_raises (S := S) .tfqmr op n _ (lit (1 / 100000000)) (lit (1 / 1000000)) none
    ⟨.inr ⟨rfl, rfl⟩, .inr ⟨rfl, rfl⟩, .inr ⟨.inl rfl, rfl⟩⟩ rhs _ (.inr (by simp)) (.inr (by simp)) (.inr (by simp)) (.inr (by simp)) (by simp)

/-- MINRES with a preconditioner and an iteration limit given to `solve` returns -/
example (op M : V → V) (eps : S) (n : Nat) (b : V) :
    ∃ res products, minresCall op true true eps n (fun _ => none) b (fun key => if key = "precon" then some (.op M) else
      if key = "itnlim" then some (.nat 2) else none) = .ok (res, products) := by
  obtain ⟨res, products, h, -⟩ := C34_status_partial op eps n {} b
    { precon := some M, shift := lit 0, itnlim := some 2, rtol := lit (1 / 1000000000000), etol := lit (1 / 1000000) } (by simp)
  refine ⟨res, products, ?_⟩
  rw [← h]
  simp [minresCall, minresKwargs, Kwargs.getOp, Kwargs.getNum, Kwargs.getBool, Kwargs.getNat, krylovInit]
  rfl

/-- the hypotheses of `C48_minres_options_partial` are met: two options are given, the others left out -/
example (op : V → V) (eps r : S) (n : Nat) (b : V) :
    minresCall op true true eps n (fun _ => none) b (fun key => if key = "rtol" then some (.num r) else
      if key = "window" then some (.nat 3) else none) =
    minresSolve op eps n {} b { shift := lit 0, rtol := r, etol := lit (1 / 1000000), window := 3 } :=
  C48_minres_options_partial op true true eps n b _ none (lit 0) r (lit (1 / 1000000)) true false none 3
    (.inr ⟨rfl, rfl⟩) (.inr ⟨rfl, rfl⟩) (.inr ⟨rfl, rfl⟩) (.inr ⟨rfl, rfl⟩) (.inl rfl) (.inr ⟨rfl, rfl⟩) (.inr ⟨rfl, rfl⟩) (.inl rfl)

end Verif.Solver
