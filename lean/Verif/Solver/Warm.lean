import Verif.Solver.TFQMR
import Verif.Solver.BiCGSTAB
import Verif.Solver.CGLemmas

/-!
# C77: starting from a guess

A solve from a guess `g` is a solve for the correction: the run on the right-hand side `b` from `g` is the run on `b - A g` from zero,
with `g` added to the iterates.  Exact arithmetic, for every function in the place of the operator.
-/

namespace Verif.Solver
open Scalar Vect

variable {E : Type} [NormedAddCommGroup E] [InnerProductSpace ℝ E] {op : Vec E → Vec E} {M : Option (Vec E → Vec E)}

namespace Vec

theorem shift_add (g x y : Vec E) : g + x + y = g + (x + y) := by
  cases g <;> cases x <;> cases y <;> simp [add_assoc]

theorem shift_zeros (g : Vec E) : g + zeros = g := by
  cases g <;> simp

theorem shift_neg (b a : Vec E) : -(b - a) = -b + a := by
  cases b <;> cases a <;> simp [sub_eq_add_neg, add_comm]

end Vec

/-! ### CGS -/

/-- the loop variables of the run from the guess -/
noncomputable def CGSLoop.warm (g : Vec E) (s : CGSLoop Fl (Vec E)) : CGSLoop Fl (Vec E) := { s with x := g + s.x, calls := g :: s.calls }

theorem cgsStep_warm (g : Vec E) (t : Fl) (mm : Nat) (r0 : Vec E) (s : CGSLoop Fl (Vec E)) :
    cgsStep op M t mm r0 (s.warm g) = (cgsStep op M t mm r0 s).warm g := by
  unfold cgsStep CGSLoop.warm
  simp only [Vec.shift_add, apply_ite]
  split <;> rfl

theorem cgsLoop_warm (g : Vec E) (t : Fl) (mm : Nat) (r0 : Vec E) (s : CGSLoop Fl (Vec E)) :
    cgsLoop op M t mm r0 (s.warm g) = (cgsLoop op M t mm r0 s).warm g :=
  whileLoop_sim (fun a b : CGSLoop Fl (Vec E) => a = b.warm g) (fun _ _ h => by rw [h]; rfl)
    (fun a b h _ => by rw [h, cgsStep_warm]) _ _ rfl

/-! ### Bi-CGSTAB -/

/-- the loop variables of the run from the guess; the product with the guess is counted -/
noncomputable def BiLoop.warm (g : Vec E) (s : BiLoop Fl (Vec E)) : BiLoop Fl (Vec E) :=
  { s with x := g + s.x, nMatvec := s.nMatvec + 1, calls := g :: s.calls }

theorem biStep_warm (g : Vec E) (t : Fl) (mm : Nat) (r0 : Vec E) (s : BiLoop Fl (Vec E)) :
    biStep op M t (mm + 1) r0 (s.warm g) = (biStep op M t mm r0 s).warm g := by
  have e : ∀ k, (k + 1 + 1 ≥ mm + 1) = (k + 1 ≥ mm) := fun k => by rw [ge_iff_le, Nat.add_le_add_iff_right]
  have e' : ∀ k, (k + 1 + 2 ≥ mm + 1) = (k + 2 ≥ mm) := fun k => propext ⟨fun h => by omega, fun h => by omega⟩
  unfold biStep BiLoop.warm
  simp only [Vec.shift_add, e, e']
  split
  · rfl
  · split <;> rfl

theorem biLoop_warm (g : Vec E) (t : Fl) (mm : Nat) (r0 : Vec E) (s : BiLoop Fl (Vec E)) :
    biLoop op M t (mm + 1) r0 (s.warm g) = (biLoop op M t mm r0 s).warm g :=
  whileLoop_sim (fun a b : BiLoop Fl (Vec E) => a = b.warm g) (fun _ _ h => by rw [h]; rfl)
    (fun a b h _ => by rw [h, biStep_warm]) _ _ rfl

/-! ### TFQMR -/

/-- the loop variables of the run from the guess -/
noncomputable def TFLoop.warm (g : Vec E) (s : TFLoop Fl (Vec E)) : TFLoop Fl (Vec E) := { s with x := g + s.x, calls := g :: s.calls }

theorem tfPass_warm (g : Vec E) (alpha : Fl) (s : TFLoop Fl (Vec E)) : tfPass alpha (s.warm g) = (tfPass alpha s).warm g := by
  unfold tfPass TFLoop.warm
  simp only [Vec.shift_add]

theorem tfStep_warm (g : Vec E) (t : Fl) (mm : Nat) (r0 : Vec E) (s : TFLoop Fl (Vec E)) :
    tfStep op M t mm r0 (s.warm g) = (tfStep op M t mm r0 s).warm g := by
  have e1 : ∀ (s : TFLoop Fl (Vec E)) k m, { s.warm g with k := k, m := m } = TFLoop.warm g { s with k := k, m := m } := fun _ _ _ => rfl
  have e2 : ∀ (a m : Fl) (s : TFLoop Fl (Vec E)), tfMid op M a m (s.warm g) = (tfMid op M a m s).warm g := fun _ _ _ => rfl
  have e3 : ∀ (m : Fl) (s : TFLoop Fl (Vec E)), tfTest t mm m (s.warm g) = tfTest t mm m s := fun _ _ => rfl
  have e4 : ∀ (s : TFLoop Fl (Vec E)), tfFinal op M r0 (s.warm g) = (tfFinal op M r0 s).warm g := fun _ => rfl
  have e5 : ∀ (s : TFLoop Fl (Vec E)), (s.warm g).rho = s.rho ∧ (s.warm g).v = s.v ∧ (s.warm g).k = s.k := fun _ => ⟨rfl, rfl, rfl⟩
  unfold tfStep
  simp only [(e5 s).1, (e5 s).2.1, (e5 s).2.2]
  simp only [tfPass_warm]
  simp only [e1]
  simp only [e2, e3]
  simp only [tfPass_warm]
  simp only [e3, e4]
  split
  · rfl
  · split <;> rfl

theorem tfLoop_warm (g : Vec E) (t : Fl) (mm : Nat) (r0 : Vec E) (s : TFLoop Fl (Vec E)) :
    tfLoop op M t mm r0 (s.warm g) = (tfLoop op M t mm r0 s).warm g :=
  whileLoop_sim (fun a b : TFLoop Fl (Vec E) => a = b.warm g) (fun _ _ h => by rw [h]; rfl)
    (fun a b h _ => by rw [h, tfStep_warm]) _ _ rfl

/-! ### CG -/

/-- the loop variables of the run from the guess; the product with the guess is counted -/
noncomputable def CGLoop.warm (g : Vec E) (s : CGLoop Fl (Vec E)) : CGLoop Fl (Vec E) :=
  { s with x := g + s.x, nMatvec := s.nMatvec + 1, iterates := s.iterates.map (g + ·), calls := g :: s.calls }

theorem cgStep_warm (g : Vec E) (kw kw' : CGKw (Vec E)) (h1 : kw'.checkCurvature = kw.checkCurvature) (h2 : kw'.storeResids = kw.storeResids)
    (h3 : kw'.storeIterates = kw.storeIterates) (s : CGLoop Fl (Vec E)) : cgStep op M kw' (s.warm g) = (cgStep op M kw s).warm g := by
  unfold cgStep CGLoop.warm
  simp only [Vec.shift_add, h1, h2, h3]
  split
  · rfl
  · congr 1
    simp only
    split <;> simp

theorem cgLoop_warm (g : Vec E) (kw kw' : CGKw (Vec E)) (h1 : kw'.checkCurvature = kw.checkCurvature) (h2 : kw'.storeResids = kw.storeResids)
    (h3 : kw'.storeIterates = kw.storeIterates) (t : Fl) (mm : Nat) (s : CGLoop Fl (Vec E)) :
    cgLoop op M kw' t (mm + 1) (s.warm g) = (cgLoop op M kw t mm s).warm g := by
  have hc : cgCont t (mm + 1) (s.warm g) = cgCont t mm s := by
    have : decide (s.nMatvec + 1 < mm + 1) = decide (s.nMatvec < mm) := decide_eq_decide.2 (by omega)
    unfold cgCont CGLoop.warm
    simp only [this]
  rw [cgLoop.eq_def op M kw' t (mm + 1), cgLoop.eq_def op M kw t mm s, hc]
  by_cases h : cgCont t mm s = true
  · have := cgStep_nMatvec op M kw s
    rw [dif_pos h, dif_pos h, cgStep_warm g kw kw' h1 h2 h3]
    exact cgLoop_warm g kw kw' h1 h2 h3 t mm _
  · rw [dif_neg h, dif_neg h]
termination_by mm - s.nMatvec
decreasing_by
  simp only [cgCont, Bool.and_eq_true, decide_eq_true_eq] at h
  omega

end Verif.Solver
