import Verif.Solver.Warp
import Verif.Solver.MinresExact

/-!
# MINRES with a preconditioner: simulation by MINRES without, in another inner product
-/

namespace Verif.Solver
open Scalar Vect

section
variable {S V' V : Type} [Scalar S] [Vect S V'] [Vect S V]

/-- the loop variables, read through a `DualMap` -/
def DualMap.minresLoop (d : DualMap S V' V) (s : MinresLoop S V') : MinresLoop S V :=
  { x := d.P s.x, y := d.P s.y, r1 := d.D s.r1, r2 := d.D s.r2, w := d.P s.w, w2 := d.P s.w2, oldb := s.oldb, beta := s.beta,
    dbar := s.dbar, epsln := s.epsln, phibar := s.phibar, rhs1 := s.rhs1, rhs2 := s.rhs2, tnorm2 := s.tnorm2,
    ynorm2 := s.ynorm2, cs := s.cs, sn := s.sn, gmax := s.gmax, gmin := s.gmin, xNrgNorm2 := s.xNrgNorm2, dErr := s.dErr,
    Anorm := s.Anorm, Acond := s.Acond, rnorm := s.rnorm, ynorm := s.ynorm, Arnorm := s.Arnorm, istop := s.istop, itn := s.itn,
    broke := s.broke, residHistory := s.residHistory, dirErrors := s.dirErrors, iterates := s.iterates.map d.P,
    calls := s.calls.map d.P }

/-- the result, read through a `DualMap` -/
def DualMap.minresRes (d : DualMap S V' V) (r : MinresRes S V') : MinresRes S V :=
  { converged := r.converged, x := d.P r.x, istop := r.istop, itn := r.itn, nMatvec := r.nMatvec, rnorm := r.rnorm,
    residNorm0 := r.residNorm0, Arnorm := r.Arnorm, Anorm := r.Anorm, Acond := r.Acond, ynorm := r.ynorm,
    residHistory := r.residHistory, dirErrors := r.dirErrors, iterates := r.iterates.map d.P }

/-- the keywords without preconditioner -/
def MinresKw.unprec (kw : MinresKw S V) (shift : S) : MinresKw S V' :=
  { shift := shift, check := kw.check, symOK := kw.symOK, itnlim := kw.itnlim, rtol := kw.rtol, etol := kw.etol,
    storeIterates := kw.storeIterates, window := kw.window }

variable (d : DualMap S V' V) {op : V → V} {op' : V' → V'} {kw : MinresKw S V} {shift : S}

theorem minresLanczos_dual (hop : ∀ u, op (d.P u) - smul kw.shift (d.P u) = d.D (op' u - smul shift u))
    (hpre : ∀ u, applyPrecon kw.precon (d.D u) = d.P u) (itn : Nat) (s : MinresLoop S V') :
    minresLanczos op kw itn (d.minresLoop s) =
      let p := minresLanczos op' (kw.unprec shift) itn s
      (d.P p.1, p.2.1, d.D p.2.2.1, d.P p.2.2.2.1, p.2.2.2.2) := by
  have hshift : (kw.unprec shift : MinresKw S V').shift = shift := rfl
  have hpre' : ∀ u, applyPrecon (kw.unprec shift : MinresKw S V').precon u = u := fun _ => rfl
  have hop2 : ∀ u, op (d.P u) - d.P (smul kw.shift u) = d.D (op' u - smul shift u) := fun u => by rw [d.P_smul, hop]
  unfold minresLanczos
  simp only [DualMap.minresLoop, hshift, hpre', ← d.P_smul, hop2]
  by_cases h : itn ≥ 2 <;>
    simp only [h, if_true, if_false, ← d.D_smul, ← d.D_sub, ← d.D_add, d.dot_PD, d.dot_DP, hpre]

theorem minresStep_dual (hop : ∀ u, op (d.P u) - smul kw.shift (d.P u) = d.D (op' u - smul shift u))
    (hpre : ∀ u, applyPrecon kw.precon (d.D u) = d.P u) (eps : S) (lim : Nat) (beta1 : S) (s : MinresLoop S V') :
    minresStep op eps kw lim beta1 (d.minresLoop s) = d.minresLoop (minresStep op' eps (kw.unprec shift) lim beta1 s) := by
  have hL := minresLanczos_dual d hop hpre (s.itn + 1) s
  unfold minresStep
  have hi : (d.minresLoop s).itn = s.itn := rfl
  simp only [hi, hL]
  generalize minresLanczos op' (kw.unprec shift) (s.itn + 1) s = p
  obtain ⟨v, alfa, r2, y, bb⟩ := p
  simp only
  split
  · simp only [DualMap.minresLoop, List.map_append, List.map_cons, List.map_nil]
  · have k1 : (kw.unprec shift : MinresKw S V').window = kw.window := rfl
    have k2 : (kw.unprec shift : MinresKw S V').etol = kw.etol := rfl
    have k3 : (kw.unprec shift : MinresKw S V').rtol = kw.rtol := rfl
    have k4 : (kw.unprec shift : MinresKw S V').storeIterates = kw.storeIterates := rfl
    simp only [DualMap.minresLoop, k1, k2, k3, k4, ← d.P_smul, ← d.P_sub, ← d.P_add]
    congr 1
    · split <;> simp
    · simp

theorem minresCont_dual (lim : Nat) (s : MinresLoop S V') : minresCont lim (d.minresLoop s) = minresCont lim s := rfl

theorem minresLoop_dual (hop : ∀ u, op (d.P u) - smul kw.shift (d.P u) = d.D (op' u - smul shift u))
    (hpre : ∀ u, applyPrecon kw.precon (d.D u) = d.P u) (eps : S) (lim : Nat) (beta1 : S) (s : MinresLoop S V') :
    Verif.Solver.minresLoop op eps kw lim beta1 (d.minresLoop s) =
      d.minresLoop (Verif.Solver.minresLoop op' eps (kw.unprec shift) lim beta1 s) := by
  unfold Verif.Solver.minresLoop
  refine whileLoop_sim (fun a b => a = d.minresLoop b) ?_ ?_ _ _ rfl
  · rintro _ b rfl; rfl
  · rintro _ b rfl _; exact minresStep_dual d hop hpre eps lim beta1 b

/-- **Simulation.** `solve` with a preconditioner is `solve` without, read through the `DualMap`. -/
theorem minresSolve_dual (hop : ∀ u, op (d.P u) - smul kw.shift (d.P u) = d.D (op' u - smul shift u))
    (hpre : ∀ u, applyPrecon kw.precon (d.D u) = d.P u) (hok : kw.preconSymOK = true) (eps : S) (n : Nat)
    (self : MinresObj S V) (b : V') :
    minresSolve op eps n self (d.D b) kw =
      (minresSolve op' eps n ⟨self.residHistory⟩ b (kw.unprec shift)).map fun p => (d.minresRes p.1, p.2.map d.P) := by
  have hpre' : ∀ u, applyPrecon (kw.unprec shift : MinresKw S V').precon u = u := fun _ => rfl
  have h1 : minresStart kw (d.D b) = (d.P b, (minresStart (kw.unprec shift : MinresKw S V') b).2) := by
    simp only [minresStart, hpre, hpre', d.dot_DP]
  have h2 : minresEntry kw (d.D b) = minresEntry (kw.unprec shift : MinresKw S V') b := by
    have k1 : (kw.unprec shift : MinresKw S V').check = kw.check := rfl
    have k2 : (kw.unprec shift : MinresKw S V').symOK = kw.symOK := rfl
    have k3 : (kw.unprec shift : MinresKw S V').precon = none := rfl
    simp only [minresEntry, hpre, hpre', d.dot_DP, hok, k1, k2, k3, Bool.not_true, Bool.and_false, Bool.false_eq_true, if_false,
      Option.isSome_none, Bool.false_and]
    rfl
  have h3 : minresInit kw self (d.D b) = d.minresLoop (minresInit (kw.unprec shift) ⟨self.residHistory⟩ b) := by
    have h1' : (minresStart (kw.unprec shift : MinresKw S V') b).1 = b := rfl
    have k1 : (kw.unprec shift : MinresKw S V').window = kw.window := rfl
    have k4 : (kw.unprec shift : MinresKw S V').storeIterates = kw.storeIterates := rfl
    simp only [minresInit, h1, h2, DualMap.minresLoop, d.P_zeros, k1, k4, h1']
    congr 1
    split <;> simp [d.P_zeros]
  unfold minresSolve
  simp only [h1, h2, h3, minresLanczos_dual d hop hpre, minresLoop_dual d hop hpre]
  have k1 : (kw.unprec shift : MinresKw S V').window = kw.window := rfl
  have k2 : (kw.unprec shift : MinresKw S V').itnlim = kw.itnlim := rfl
  simp only [k1, k2]
  split
  · rfl
  · split <;> rfl

end
end Verif.Solver
