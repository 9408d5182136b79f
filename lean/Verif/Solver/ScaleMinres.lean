import Verif.Solver.ScaleSymmlq
import Verif.Solver.MinresExact

/-!
# Coordinates in MINRES: simulation

Units matter (`ScaleMinresFindings`); only the coordinates are changed.  With or without a preconditioner.
-/

namespace Verif.Solver
open Scalar Vect

variable {E E' : Type} [NormedAddCommGroup E] [InnerProductSpace ℝ E] [NormedAddCommGroup E'] [InnerProductSpace ℝ E']

/-- the operator and the preconditioner in other coordinates -/
structure MinresCoords (Q : E →ₗᵢ[ℝ] E') (op : Vec E → Vec E) (op' : Vec E' → Vec E') (kw : MinresKw Fl (Vec E)) (p' : Option (Vec E' → Vec E')) :
    Prop where
  op : ∀ v, op' (Vec.sc Q 1 v) = Vec.sc Q 1 (op v)
  pre : ∀ v, applyPrecon p' (Vec.sc Q 1 v) = Vec.sc Q 1 (applyPrecon kw.precon v)
  some : p'.isSome = kw.precon.isSome

/-- the keywords in other coordinates -/
def MinresKw.coords (kw : MinresKw Fl (Vec E)) (p' : Option (Vec E' → Vec E')) : MinresKw Fl (Vec E') :=
  { precon := p', shift := kw.shift, check := kw.check, symOK := kw.symOK, preconSymOK := kw.preconSymOK, itnlim := kw.itnlim,
    rtol := kw.rtol, etol := kw.etol, storeIterates := kw.storeIterates, window := kw.window }

/-- the loop variables in other coordinates -/
noncomputable def minresCoords (Q : E →ₗᵢ[ℝ] E') (s : MinresLoop Fl (Vec E)) : MinresLoop Fl (Vec E') :=
  { x := Vec.sc Q 1 s.x, y := Vec.sc Q 1 s.y, r1 := Vec.sc Q 1 s.r1, r2 := Vec.sc Q 1 s.r2, w := Vec.sc Q 1 s.w, w2 := Vec.sc Q 1 s.w2,
    oldb := s.oldb, beta := s.beta, dbar := s.dbar, epsln := s.epsln, phibar := s.phibar, rhs1 := s.rhs1, rhs2 := s.rhs2,
    tnorm2 := s.tnorm2, ynorm2 := s.ynorm2, cs := s.cs, sn := s.sn, gmax := s.gmax, gmin := s.gmin, xNrgNorm2 := s.xNrgNorm2,
    dErr := s.dErr, Anorm := s.Anorm, Acond := s.Acond, rnorm := s.rnorm, ynorm := s.ynorm, Arnorm := s.Arnorm, istop := s.istop,
    itn := s.itn, broke := s.broke, residHistory := s.residHistory, dirErrors := s.dirErrors,
    iterates := s.iterates.map (Vec.sc Q 1), calls := s.calls.map (Vec.sc Q 1) }

variable {Q : E →ₗᵢ[ℝ] E'} {op : Vec E → Vec E} {op' : Vec E' → Vec E'} {kw : MinresKw Fl (Vec E)} {p' : Option (Vec E' → Vec E')}

theorem minresStart_coords (h : MinresCoords Q op op' kw p') (b : Vec E) :
    minresStart (kw.coords p') (Vec.sc Q 1 b) = (Vec.sc Q 1 (minresStart kw b).1, (minresStart kw b).2) := by
  have k : (kw.coords p').precon = p' := rfl
  simp only [minresStart, k, h.pre, Vec.sc_dot1]

theorem minresEntry_coords (h : MinresCoords Q op op' kw p') (b : Vec E) : minresEntry (kw.coords p') (Vec.sc Q 1 b) = minresEntry kw b := by
  have k1 : (kw.coords p').precon = p' := rfl
  have k2 : (kw.coords p').check = kw.check := rfl
  have k3 : (kw.coords p').symOK = kw.symOK := rfl
  have k4 : (kw.coords p').preconSymOK = kw.preconSymOK := rfl
  simp only [minresEntry, k1, k2, k3, k4, h.pre, h.some, Vec.sc_dot1]

theorem minresInit_coords (h : MinresCoords Q op op' kw p') (obj : MinresObj Fl (Vec E)) (b : Vec E) :
    minresInit (kw.coords p') { residHistory := obj.residHistory } (Vec.sc Q 1 b) = minresCoords Q (minresInit kw obj b) := by
  have k1 : (kw.coords p').window = kw.window := rfl
  have k2 : (kw.coords p').storeIterates = kw.storeIterates := rfl
  simp only [minresInit, minresStart_coords h, minresEntry_coords h, k1, k2, minresCoords, Vec.sc_zeros, List.map_nil]
  congr 1
  split <;> simp only [List.map_cons, List.map_nil, Vec.sc_zeros]

theorem minresLanczos_coords (h : MinresCoords Q op op' kw p') (itn : Nat) (s : MinresLoop Fl (Vec E)) :
    minresLanczos op' (kw.coords p') itn (minresCoords Q s) = (fun p : Vec E × Fl × Vec E × Vec E × Fl =>
      (Vec.sc Q 1 p.1, p.2.1, Vec.sc Q 1 p.2.2.1, Vec.sc Q 1 p.2.2.2.1, p.2.2.2.2)) (minresLanczos op kw itn s) := by
  have k1 : (kw.coords p').precon = p' := rfl
  have k2 : (kw.coords p').shift = kw.shift := rfl
  have hi : ∀ (c : Prop) [Decidable c] (u v : Vec E), (if c then Vec.sc Q 1 u else Vec.sc Q 1 v) = Vec.sc Q 1 (if c then u else v) := by
    intro c _ u v; split <;> rfl
  simp only [minresLanczos, minresCoords, k1, k2, Vec.sc_smul', h.op, Vec.sc_sub, hi, Vec.sc_add, h.pre, Vec.sc_dot1]

theorem minresStep_coords (h : MinresCoords Q op op' kw p') (eps : Fl) (lim : Nat) (beta1 : Fl) (s : MinresLoop Fl (Vec E)) :
    minresStep op' eps (kw.coords p') lim beta1 (minresCoords Q s) = minresCoords Q (minresStep op eps kw lim beta1 s) := by
  have k1 : (kw.coords p').window = kw.window := rfl
  have k2 : (kw.coords p').storeIterates = kw.storeIterates := rfl
  have k3 : (kw.coords p').etol = kw.etol := rfl
  have k4 : (kw.coords p').rtol = kw.rtol := rfl
  have e0 : (minresCoords Q s).itn = s.itn := rfl
  unfold minresStep
  simp only [e0, minresLanczos_coords h]
  generalize minresLanczos op kw (s.itn + 1) s = p
  obtain ⟨v, alfa, r2, y, bb⟩ := p
  simp only
  split
  · simp only [minresCoords, List.map_append, List.map_cons, List.map_nil]
  · simp only [minresCoords, k1, k2, k3, k4, Vec.sc_smul', Vec.sc_sub, Vec.sc_add, List.map_append, List.map_cons, List.map_nil]
    congr 1
    split <;> simp

/-- the results in other coordinates -/
noncomputable def MinresRes.coords (Q : E →ₗᵢ[ℝ] E') (r : MinresRes Fl (Vec E)) : MinresRes Fl (Vec E') :=
  { converged := r.converged, x := Vec.sc Q 1 r.x, istop := r.istop, itn := r.itn, nMatvec := r.nMatvec, rnorm := r.rnorm,
    residNorm0 := r.residNorm0, Arnorm := r.Arnorm, Anorm := r.Anorm, Acond := r.Acond, ynorm := r.ynorm,
    residHistory := r.residHistory, dirErrors := r.dirErrors, iterates := r.iterates.map (Vec.sc Q 1) }

theorem minres_coords (h : MinresCoords Q op op' kw p') (eps : Fl) (n : Nat) (obj : MinresObj Fl (Vec E)) (b : Vec E) :
    minresSolve op' eps n { residHistory := obj.residHistory } (Vec.sc Q 1 b) (kw.coords p') =
      (minresSolve op eps n obj b kw).map fun p => (p.1.coords Q, p.2.map (Vec.sc Q 1)) := by
  have k1 : (kw.coords p').window = kw.window := rfl
  have k2 : (kw.coords p').itnlim = kw.itnlim := rfl
  unfold minresSolve
  simp only [k1, k2, minresEntry_coords h, minresStart_coords h, minresInit_coords h, minresLanczos_coords h]
  split
  · rfl
  · split
    · rfl
    · have main : minresLoop op' eps (kw.coords p') (kw.itnlim.getD (5 * n)) (minresStart kw b).2 (minresCoords Q (minresInit kw obj b)) =
          minresCoords Q (minresLoop op eps kw (kw.itnlim.getD (5 * n)) (minresStart kw b).2 (minresInit kw obj b)) :=
        whileLoop_sim (fun (s : MinresLoop Fl (Vec E)) (s' : MinresLoop Fl (Vec E')) => s' = minresCoords Q s)
          (fun s s' hR => by rw [hR]; rfl) (fun s s' hR _ => by rw [hR]; exact minresStep_coords h _ _ _ s) _ _ rfl
      rw [main]
      rfl

end Verif.Solver
