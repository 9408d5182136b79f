import Verif.Lbfgs.Compact
import Verif.Lbfgs.BFGS
import Verif.Solver.Exact

/-!
# The L-BFGS products in exact arithmetic
-/

namespace Verif.Lbfgs
open Verif.Solver Scalar Vect
open scoped RealInnerProductSpace
open Verif.Solver.CGMath (SPD)

variable {E : Type} [NormedAddCommGroup E] [InnerProductSpace ℝ E]

/-- a pair of finite vectors -/
def finPair (p : E × E) : Vec E × Vec E := (Vec.fin p.1, Vec.fin p.2)

/-- a finite pair with its inner product -/
noncomputable def finTriple (p : E × E) : Vec E × Vec E × Fl := (Vec.fin p.1, Vec.fin p.2, Fl.fin ⟪p.2, p.1⟫)

theorem withYs_finPair (p : E × E) : withYs (finPair p) = finTriple p := by
  simp only [withYs, finPair, finTriple, Vec.fin_dot, real_inner_comm]

theorem history_accepted {S V : Type} [Scalar S] [Vect S V] : ∀ (cmds : List (Cmd S V)) (acc : List (V × V)),
    (∀ p ∈ acc, accepted (S := S) p.1 p.2 = true) → ∀ p ∈ history acc cmds, accepted (S := S) p.1 p.2 = true
  | [], _, h => h
  | .store s y :: cmds, acc, h => by
    refine history_accepted cmds _ ?_
    by_cases ha : accepted (S := S) s y = true
    · rw [if_pos ha]
      intro p hp
      rcases List.mem_cons.1 hp with rfl | hp
      · exact ha
      · exact h p hp
    · rw [if_neg ha]; exact h
  | .restart _ :: cmds, _, _ => history_accepted cmds [] (by simp)
  | .product _ :: cmds, acc, h => history_accepted cmds acc h

theorem curv_of_accepted {p : E × E} (h : accepted (S := Fl) (Vec.fin p.1) (Vec.fin p.2) = true) : 0 < ⟪p.2, p.1⟫ := by
  unfold accepted at h
  simp only [Vec.fin_dot, Fl.lit_eq, Bool.not_eq_true'] at h
  rw [← Bool.not_eq_true, Fl.fin_le, not_le] at h
  rw [real_inner_comm]
  have : (0 : ℝ) < ((1 / 10 ^ 20 : ℚ) : ℝ) := by norm_num
  exact this.trans h

theorem recent_curv {n : Nat} {cmds : List (Cmd Fl (Vec E))} {P : List (E × E)} (h : recent n cmds = P.map finPair) : Curv P := by
  intro p hp
  have hm : finPair p ∈ recent n cmds := by rw [h]; exact List.mem_map_of_mem hp
  exact curv_of_accepted (history_accepted cmds [] (by simp) _ (List.mem_of_mem_take hm))

/-! ### inverse -/

theorem twoLoop_exact {γ : ℝ} {f : Vec E → Vec E} (hf : ∀ q, f (.fin q) = .fin (γ • q)) : ∀ {P : List (E × E)}, Curv P → ∀ q : E,
    twoLoop f (P.map finTriple) (.fin q) = .fin (invMat γ P q)
  | [], _, q => by simp [twoLoop, hf, invMat]
  | p :: P, h, q => by
    have hc : ⟪p.2, p.1⟫ ≠ 0 := (h p List.mem_cons_self).ne'
    have hP : Curv P := fun q hq => h q (List.mem_cons_of_mem _ hq)
    simp only [List.map_cons, twoLoop, finTriple, Vec.fin_dot, Fl.fin_div _ hc, Vec.fin_smul, Vec.fin_sub]
    have ih := twoLoop_exact hf hP (q - (⟪p.1, q⟫ / ⟪p.2, p.1⟫) • p.2)
    rw [ih]
    simp only [Vec.fin_dot, Fl.fin_div _ hc, Fl.fin_sub, Vec.fin_smul, Vec.fin_add, invMat]
    rw [bfgsInv_apply]

theorem scaleBy_smul (scaling : Bool) {P : List (E × E)} (h : Curv P) (q : E) :
    scaleBy scaling (fun g q => smul g q) (P.map finTriple) (Vec.fin q) = .fin (scaleFactor scaling P • q) := by
  cases P with
  | nil => simp [scaleBy, scaleFactor]
  | cons p P =>
    have hc := h p List.mem_cons_self
    have hy : ⟪p.2, p.2⟫ ≠ 0 := by
      intro h0; rw [inner_self_eq_zero.1 h0, inner_zero_left] at hc; exact lt_irrefl _ hc
    simp only [List.map_cons, scaleBy, scaleFactor, newGamma, finTriple, Vec.fin_dot]
    cases scaling with
    | false => simp
    | true => rw [if_pos rfl, if_pos rfl, Fl.fin_div _ hy, Vec.fin_smul]

/-! ### forward -/

theorem fwd_exact (v : E) : ∀ {P : List (E × E)}, Curv P →
    ∃ acc : List (Vec E × Vec E), (P.map finTriple).foldr (fun p q => fwdList (Vec.fin v) q p) (Vec.fin v, []) =
      (Vec.fin (fwdMat 1 P v), acc) ∧ ∀ w : E, fwdVec (S := Fl) acc (Vec.fin w) = Vec.fin (fwdMat 1 P w)
  | [], _ => ⟨[], by simp [fwdMat], fun w => by simp [fwdVec, fwdMat]⟩
  | p :: P, h => by
    have hc : 0 < ⟪p.2, p.1⟫ := h p List.mem_cons_self
    have hP : Curv P := fun q hq => h q (List.mem_cons_of_mem _ hq)
    obtain ⟨acc, h1, h2⟩ := fwd_exact v hP
    set B := fwdMat 1 P with hB
    have hSPD : SPD B := fwdMat_spd one_pos hP
    have hsb : 0 < ⟪p.1, B p.1⟫ := hSPD.pos _ (pos_ne_zero hc)
    have hs1 : √⟪p.1, B p.1⟫ ≠ 0 := (Real.sqrt_pos.2 hsb).ne'
    have hs2 : √⟪p.2, p.1⟫ ≠ 0 := (Real.sqrt_pos.2 hc).ne'
    have hpair : fwdPair acc (finTriple p) =
        (Vec.fin ((√⟪p.1, B p.1⟫)⁻¹ • B p.1), Vec.fin ((√⟪p.2, p.1⟫)⁻¹ • p.2)) := by
      simp only [fwdPair, finTriple, h2, Vec.fin_dot, Fl.fin_sqrt hsb.le, Fl.fin_sqrt hc.le, Vec.fin_vdiv _ hs1, Vec.fin_vdiv _ hs2]
    have hup : ∀ w : E, (Vec.fin (B w) + smul (S := Fl) (dot (Vec.fin ((√⟪p.2, p.1⟫)⁻¹ • p.2)) (Vec.fin w)) (Vec.fin ((√⟪p.2, p.1⟫)⁻¹ • p.2)))
        - smul (S := Fl) (dot (Vec.fin ((√⟪p.1, B p.1⟫)⁻¹ • B p.1)) (Vec.fin w)) (Vec.fin ((√⟪p.1, B p.1⟫)⁻¹ • B p.1)) =
        Vec.fin (fwdMat 1 (p :: P) w) := by
      intro w
      simp only [Vec.fin_dot, Vec.fin_smul, Vec.fin_add, Vec.fin_sub, fwdMat, bfgs_apply, ← hB]
      congr 1
      have q1 : (√⟪p.1, B p.1⟫)⁻¹ * (√⟪p.1, B p.1⟫)⁻¹ = ⟪p.1, B p.1⟫⁻¹ := by
        rw [← mul_inv, Real.mul_self_sqrt hsb.le]
      have q2 : (√⟪p.2, p.1⟫)⁻¹ * (√⟪p.2, p.1⟫)⁻¹ = ⟪p.2, p.1⟫⁻¹ := by
        rw [← mul_inv, Real.mul_self_sqrt hc.le]
      rw [real_inner_smul_left, real_inner_smul_left, smul_smul, smul_smul, hSPD.symm p.1 w]
      have r1 : (√⟪p.1, B p.1⟫)⁻¹ * ⟪p.1, B w⟫ * (√⟪p.1, B p.1⟫)⁻¹ = ⟪p.1, B w⟫ / ⟪p.1, B p.1⟫ := by
        rw [div_eq_mul_inv, ← q1]; ring
      have r2 : (√⟪p.2, p.1⟫)⁻¹ * ⟪p.2, w⟫ * (√⟪p.2, p.1⟫)⁻¹ = ⟪p.2, w⟫ / ⟪p.2, p.1⟫ := by
        rw [div_eq_mul_inv, ← q2]; ring
      rw [r1, r2]
      abel
    refine ⟨acc ++ [fwdPair acc (finTriple p)], ?_, ?_⟩
    · rw [List.map_cons, List.foldr_cons, h1]
      simp only [fwdList]
      rw [hpair]
      simp only
      rw [hup]
    · intro w
      have : fwdVec (S := Fl) (acc ++ [fwdPair acc (finTriple p)]) (Vec.fin w) =
          (fwdVec (S := Fl) acc (Vec.fin w) + smul (S := Fl) (dot (fwdPair acc (finTriple p)).2 (Vec.fin w)) (fwdPair acc (finTriple p)).2)
            - smul (S := Fl) (dot (fwdPair acc (finTriple p)).1 (Vec.fin w)) (fwdPair acc (finTriple p)).1 := by
        unfold fwdVec
        rw [List.foldl_append]; rfl
      rw [this, h2 w, hpair]
      exact hup w

end Verif.Lbfgs
