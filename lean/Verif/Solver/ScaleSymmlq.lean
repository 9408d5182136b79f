import Verif.Solver.ScaleCraigmr
import Verif.Solver.SymmlqExact

/-!
# Units and coordinates in SYMMLQ: simulation

The operator keeps its unit (SYMMLQ compares elements of its tridiagonal matrix with the machine precision); the right-hand side and the
unknowns have the unit `τ`.  Without preconditioner.
-/

namespace Verif.Solver
open Scalar Vect

variable {E E' : Type} [NormedAddCommGroup E] [InnerProductSpace ℝ E] [NormedAddCommGroup E'] [InnerProductSpace ℝ E']

namespace Fl
variable {c : ℝ} {a b : Fl}

theorem sc_div' : sc c a / b = sc c (a / b) := by
  have := sc_div (a := a) (b := b) (c := c) (d := 1) (e := c) one_ne_zero (mul_one c).symm
  rwa [sc_one] at this

theorem sc_inv (hc : c ≠ 0) : a / sc c b = sc (1 / c) (a / b) := by
  have := sc_div (a := a) (b := b) (c := 1) (d := c) (e := 1 / c) hc (by field_simp)
  rwa [sc_one] at this

end Fl

theorem Vec.sc_smul_inv {Q : E →ₗᵢ[ℝ] E'} {v : Vec E} {c : ℝ} (hc : c ≠ 0) (a b : Fl) :
    smul (a / Fl.sc c b) (Vec.sc Q c v) = Vec.sc Q 1 (smul (a / b) v) := by
  rw [Fl.sc_inv hc, Vec.sc_smul (one_div_mul_cancel hc)]

/-- the object in other coordinates -/
structure SymmlqCoords (Q : E →ₗᵢ[ℝ] E') (o : SymmlqObj (Vec E)) (o' : SymmlqObj (Vec E')) : Prop where
  op : ∀ v, o'.op (Vec.sc Q 1 v) = Vec.sc Q 1 (o.op v)
  lin : ∀ c v, o'.op (Vec.sc Q c v) = Vec.sc Q c (o.op v)
  mv : match o.matvec, o'.matvec with
    | none, none => True
    | some f, some g => ∀ v, g (Vec.sc Q 1 v) = Vec.sc Q 1 (f v)
    | _, _ => False
  pre : o.precon = none
  pre' : o'.precon = none

/-- the loop variables in other units and coordinates; `r1` and `oldb` have the unit of the right-hand side before the loop and none after
the first iteration -/
noncomputable def symmlqUnits (Q : E →ₗᵢ[ℝ] E') (τ c : ℝ) (s : SymmlqLoop Fl (Vec E)) : SymmlqLoop Fl (Vec E') :=
  { x := Vec.sc Q τ s.x, w := Vec.sc Q 1 s.w, y := Vec.sc Q 1 s.y, r1 := Vec.sc Q c s.r1, r2 := Vec.sc Q 1 s.r2, oldb := Fl.sc c s.oldb,
    beta := s.beta, cgnorm := Fl.sc τ s.cgnorm, lqDiag := s.lqDiag.map (fun p => (Fl.sc τ p.1, p.2)), rhs1 := Fl.sc τ s.rhs1,
    rhs2 := Fl.sc τ s.rhs2, tnorm := s.tnorm, gbar := s.gbar, dbar := s.dbar, bstep := Fl.sc τ s.bstep, snprod := s.snprod,
    ynorm2 := Fl.sc (τ * τ) s.ynorm2, gmax := s.gmax, gmin := s.gmin, anorm := s.anorm, acond := s.acond, istop := s.istop, itn := s.itn,
    nMatvec := s.nMatvec, broke := s.broke, iterates := s.iterates.map (Vec.sc Q τ), calls := s.calls.map (Vec.sc Q 1) }

variable {Q : E →ₗᵢ[ℝ] E'} {τ c : ℝ} {o : SymmlqObj (Vec E)} {o' : SymmlqObj (Vec E')} {kw : SymmlqKw Fl}

theorem subShift_units (sh : Option Fl) (c : ℝ) (y v : Vec E) : subShift sh (Vec.sc Q c y) (Vec.sc Q c v) = Vec.sc Q c (subShift sh y v) := by
  cases sh <;> simp only [subShift, Vec.sc_smul', Vec.sc_sub]

theorem symmlqUnsym_units (y u r : Vec E) : symmlqUnsym kw (Vec.sc Q 1 y) (Vec.sc Q 1 u) (Vec.sc Q 1 r) = symmlqUnsym kw y u r := by
  simp only [symmlqUnsym, Vec.sc_dot1]

theorem symmlqEntry_units (h : SymmlqCoords Q o o') (hτ : 0 < τ) (b : Vec E) : symmlqEntry o' kw (Vec.sc Q τ b) = symmlqEntry o kw b := by
  have hp : 0 < τ * τ := by positivity
  simp only [symmlqEntry, h.pre, h.pre', applyPrecon, Vec.sc_dot rfl, Fl.sc_lt0 hp, Fl.sc_feq0 hp]

theorem symmlqStart_units (h : SymmlqCoords Q o o') (hτ : 0 < τ) {f : Vec E → Vec E} {g : Vec E' → Vec E'}
    (hfg : ∀ v, g (Vec.sc Q 1 v) = Vec.sc Q 1 (f v)) (b : Vec E) :
    symmlqStart o' kw g (Vec.sc Q τ b) =
      (symmlqUnits Q τ τ (symmlqStart o kw f b).1, Fl.sc τ (symmlqStart o kw f b).2.1, (symmlqStart o kw f b).2.2) := by
  unfold symmlqStart
  simp only [symmlqEntry_units h hτ, h.pre, h.pre', applyPrecon, Vec.sc_dot (c := τ) (d := τ) rfl, Fl.sc_sqrt hτ rfl, Vec.sc_smul_inv hτ.ne', hfg, h.op,
    symmlqUnsym_units, subShift_units, Vec.sc_dot1, Vec.sc_sub, Vec.sc_smul', symmlqUnits, Fl.sc_lit0, Vec.sc_zeros, Option.map_none,
    List.map_cons, List.map_nil]
  congr 2
  split <;> simp only [List.map_cons, List.map_nil, Vec.sc_zeros]

theorem symmlqTest_units (hτ : 0 < τ) (m : Nat) (beta1 : Fl) (s : SymmlqLoop Fl (Vec E)) :
    symmlqTest kw m (Fl.sc τ beta1) (symmlqUnits Q τ c s) = symmlqUnits Q τ c (symmlqTest kw m beta1 s) := by
  have ht : ∀ acond epsx epsr cgnorm i, symmlqTests kw m s.nMatvec acond (Fl.sc τ epsx) (Fl.sc τ epsr) (Fl.sc τ cgnorm) (Fl.sc τ beta1) i =
      symmlqTests kw m s.nMatvec acond epsx epsr cgnorm beta1 i := by
    intro acond epsx epsr cgnorm i
    simp only [symmlqTests, ge, Fl.sc_le hτ]
    rfl
  unfold symmlqTest
  simp only [symmlqUnits, Fl.sc_sqrt hτ rfl, Fl.sc_mul_left, Fl.sc_mul_right, Fl.sc_sc, Fl.sc_add, Fl.sc_div', Fl.sc_lt hτ, ht,
    Option.map_some]
  rfl

theorem symmlqLanczos_units (h : SymmlqCoords Q o o') (hc : 0 < c) (s : SymmlqLoop Fl (Vec E)) :
    symmlqLanczos o' kw (symmlqUnits Q τ c s) = (fun p : Vec E × Fl × Vec E × Vec E × Fl =>
      (Vec.sc Q 1 p.1, p.2.1, Vec.sc Q 1 p.2.2.1, Vec.sc Q 1 p.2.2.2.1, p.2.2.2.2)) (symmlqLanczos o kw s) := by
  have hr : smul (s.beta / Fl.sc c s.oldb) (Vec.sc Q c s.r1) = Vec.sc Q 1 (smul (s.beta / s.oldb) s.r1) := by
    exact Vec.sc_smul_inv hc.ne' _ _
  unfold symmlqLanczos
  simp only [symmlqUnits, Vec.sc_smul', h.op, subShift_units, hr, Vec.sc_sub, Vec.sc_dot1, h.pre, h.pre', applyPrecon]

theorem symmlqUpdate_units (h : SymmlqCoords Q o o') (hc : 0 < c) (s : SymmlqLoop Fl (Vec E)) :
    symmlqUpdate o' kw (symmlqUnits Q τ c s) = symmlqUnits Q τ 1 (symmlqUpdate o kw s) := by
  unfold symmlqUpdate
  rw [symmlqLanczos_units h hc]
  obtain ⟨v, alfa, r2, y, bb⟩ := symmlqLanczos o kw s
  simp only
  split
  · simp only [symmlqUnits, Fl.sc_one, List.map_append, List.map_cons, List.map_nil]
  · simp only [symmlqUnits, Fl.sc_one, Fl.sc_div', Fl.sc_mul_left, Fl.sc_mul_right, Fl.sc_sc, Fl.sc_add, Fl.sc_sub, Vec.sc_smul',
      Vec.sc_smul (mul_one τ), Vec.sc_add, Vec.sc_sub, List.map_append, List.map_cons, List.map_nil]
    congr 1
    split <;> simp

/-- corresponding states -/
def SymmlqSame (Q : E →ₗᵢ[ℝ] E') (τ : ℝ) (s : SymmlqLoop Fl (Vec E)) (s' : SymmlqLoop Fl (Vec E')) : Prop :=
  ∃ c, 0 < c ∧ s' = symmlqUnits Q τ c s

theorem symmlqStep_units (h : SymmlqCoords Q o o') (hτ : 0 < τ) (m : Nat) (beta1 : Fl) (s : SymmlqLoop Fl (Vec E))
    (s' : SymmlqLoop Fl (Vec E')) (hR : SymmlqSame Q τ s s') :
    SymmlqSame Q τ (symmlqStep o kw m beta1 s) (symmlqStep o' kw m (Fl.sc τ beta1) s') := by
  obtain ⟨c, hc, rfl⟩ := hR
  unfold symmlqStep
  simp only [symmlqTest_units hτ]
  have hb : (symmlqUnits Q τ c (symmlqTest kw m beta1 s)).broke = (symmlqTest kw m beta1 s).broke := rfl
  rw [hb]
  split
  · exact ⟨c, hc, rfl⟩
  · rw [symmlqUpdate_units h hc]
    exact ⟨1, one_pos, rfl⟩

/-- the results in other units and coordinates -/
noncomputable def SymmlqRes.units (Q : E →ₗᵢ[ℝ] E') (τ : ℝ) (r : SymmlqRes Fl (Vec E)) : SymmlqRes Fl (Vec E') :=
  { x := Vec.sc Q τ r.x, residNorm := Fl.sc τ r.residNorm, xNorm := Fl.sc τ r.xNorm, nMatvec := r.nMatvec, acond := r.acond,
    anorm := r.anorm, iterates := r.iterates.map (Vec.sc Q τ) }

theorem symmlqFinish_units (h : SymmlqCoords Q o o') (hτ : 0 < τ) (beta1 : Fl) (b : Vec E) (s : SymmlqLoop Fl (Vec E)) (l d : Fl) :
    (symmlqFinish o' kw (Fl.sc τ beta1) (Vec.sc Q τ b) (symmlqUnits Q τ c s) (Fl.sc τ l) d).1 =
        (symmlqFinish o kw beta1 b s l d).1.units Q τ ∧
      (symmlqFinish o' kw (Fl.sc τ beta1) (Vec.sc Q τ b) (symmlqUnits Q τ c s) (Fl.sc τ l) d).2.length =
        (symmlqFinish o kw beta1 b s l d).2.length := by
  have hratio : ∀ a b : Fl, Fl.sc τ a / Fl.sc τ b = a / b := fun a b => Fl.sc_ratio hτ.ne'
  unfold symmlqFinish
  simp only [symmlqUnits, Fl.sc_lt hτ, Fl.sc_div', Fl.sc_mul_right, Fl.sc_add, h.pre, h.pre', applyPrecon]
  split
  · simp only [hratio, Vec.sc_smul', Vec.sc_smul (mul_one τ), Vec.sc_add, h.lin, subShift_units, Vec.sc_sub, Vec.sc_norm hτ.le,
      SymmlqRes.units]
    exact ⟨trivial, by simp⟩
  · simp only [hratio, Vec.sc_smul', Vec.sc_add, h.lin, subShift_units, Vec.sc_sub, Vec.sc_norm hτ.le, SymmlqRes.units]
    exact ⟨trivial, by simp⟩

theorem symmlq_units (h : SymmlqCoords Q o o') (hτ : 0 < τ) (n : Nat) (b : Vec E) :
    ExRel (fun p p' => p'.1 = p.1.units Q τ ∧ p'.2.length = p.2.length) (symmlqSolve o n b kw) (symmlqSolve o' n (Vec.sc Q τ b) kw) := by
  have hp : 0 < τ * τ := by positivity
  unfold symmlqSolve
  simp only [h.pre, h.pre', applyPrecon, Vec.sc_dot (c := τ) (d := τ) rfl, Fl.sc_gt0 hp]
  split
  · exact .error _
  · split
    · have hm := h.mv
      revert hm
      cases o.matvec <;> cases o'.matvec
      · intro _; exact .error _
      · intro hm; exact hm.elim
      · intro hm; exact hm.elim
      · rename_i f g
        intro hfg
        simp only at hfg
        simp only [symmlqStart_units h hτ hfg]
        generalize symmlqStart o kw f b = st
        obtain ⟨s, beta1, done⟩ := st
        simp only
        have main : SymmlqSame Q τ (if done = true then s else symmlqLoop o kw (kw.matvecMax.getD (2 * n + 2)) beta1 s)
            (if done = true then symmlqUnits Q τ τ s else
              symmlqLoop o' kw (kw.matvecMax.getD (2 * n + 2)) (Fl.sc τ beta1) (symmlqUnits Q τ τ s)) := by
          split
          · exact ⟨τ, hτ, rfl⟩
          · exact whileLoop_sim (SymmlqSame Q τ) (fun s s' hR => by obtain ⟨_, _, rfl⟩ := hR; rfl)
              (fun s s' hR _ => symmlqStep_units h hτ _ _ s s' hR) s _ ⟨τ, hτ, rfl⟩
        revert main
        generalize (if done = true then s else symmlqLoop o kw (kw.matvecMax.getD (2 * n + 2)) beta1 s) = r
        generalize (if done = true then symmlqUnits Q τ τ s else
              symmlqLoop o' kw (kw.matvecMax.getD (2 * n + 2)) (Fl.sc τ beta1) (symmlqUnits Q τ τ s)) = r'
        rintro ⟨c, hc, rfl⟩
        have hl : (symmlqUnits Q τ c r).lqDiag = r.lqDiag.map (fun p => (Fl.sc τ p.1, p.2)) := rfl
        rw [hl]
        cases r.lqDiag with
        | none => exact .error _
        | some p => exact .ok (symmlqFinish_units h hτ beta1 b r p.1 p.2)
    · exact .error _

end Verif.Solver
