import Verif.Solver.HeapProps2

/-!
# SYMMLQ when `matvec` returns its argument (C54)

The system `(A - shift I) x = 2` with `A = I` and `shift = -3`, one unknown, in exact arithmetic.
-/

namespace Verif.Solver
open Scalar Vect

/-- the shift is -3; default budget, no check -/
noncomputable def symAliasKw : SymmlqKw Fl := { rtol := .fin 0, shift := some (.fin (-3)), eps := .fin (1/1000), eps3 := .fin (1/10) }

/-- an object of class `Symmlq` for the identity, with the attribute `matvec` -/
def symAliasObj (mv : HOp (Vec ℝ)) : SymmlqObjH (Vec ℝ) := ⟨HOp.fresh id, none, some mv⟩

theorem symAlias_shift : symmlqShift symAliasKw = some (.fin (-3)) := by
  unfold symmlqShift symAliasKw
  simp only
  rw [if_neg]
  rw [show feq (Fl.fin (-3)) (lit 0) = false from feq_fin_false (by norm_num)]
  simp

/-- the loop variables before the first iteration -/
noncomputable def symAliasState (y r2 : Nat) (alfa : ℝ) : SymmlqLoop Fl Nat :=
  { x := 2, w := 1, y := y, r1 := 3, r2 := r2, oldb := .fin 2, beta := .fin 0, cgnorm := .fin 2, lqDiag := none,
    rhs1 := .fin 2, rhs2 := lit 0, tnorm := .fin alfa * .fin alfa + .fin 0 * .fin 0, gbar := .fin alfa, dbar := .fin 0, bstep := lit 0,
    snprod := lit 1, ynorm2 := lit 0, gmax := Scalar.abs (.fin alfa) + .fin (1/1000), gmin := Scalar.abs (.fin alfa) + .fin (1/1000),
    anorm := lit 0, acond := lit 0, istop := -1, itn := 0, nMatvec := 1, broke := false, iterates := [], calls := [] }

theorem sqrt4 : sqrt (Fl.fin 4) = Fl.fin 2 := by
  rw [Fl.fin_sqrt (by norm_num), show (4:ℝ) = 2 * 2 by norm_num, Real.sqrt_mul_self (by norm_num)]

theorem sqrt0 : sqrt (Fl.fin 0) = Fl.fin 0 := by
  rw [Fl.fin_sqrt le_rfl, Real.sqrt_zero]

theorem vsub (a c x : ℝ) : Vec.fin a - smul (Fl.fin c) (Vec.fin x) = (Vec.fin (a - c * x) : Vec ℝ) := by
  simp [Vec.fin_smul, Vec.fin_sub]

/-- The block `if beta1 > 0`; `y` is the array with the product: the array 5 (that is, `v`), or a new one. -/
theorem symAlias_start (p : List (Nat → Vec ℝ)) :
    ∃ q, symmlqStartH (symAliasObj HOp.identity) symAliasKw HOp.identity 2 1 3 4 [] (.fin 4) (0, false) (heapOf p [2, 0, 0, 2, 2]) =
      (.ok (symAliasState 5 6 16, .fin 2, false), heapOf q [2, 0, 0, 2, 2, 0, 0]) := by
  have h : SimE (heapOf p [2, 0, 0, 2, 2]) (symmlqStartH (symAliasObj HOp.identity) symAliasKw HOp.identity 2 1 3 4 [] (.fin 4) (0, false)) (.ok ())
      (fun s _ h => s = (symAliasState 5 6 16, .fin 2, false) ∧ ∃ p, h = heapOf p [2, 0, 0, 2, 2, 0, 0]) := by
    unfold symmlqStartH
    rw [sqrt4, symAlias_shift]
    refine .rd (.of_evalP (a := 5) (l := [2,0,0,2,2,1]) ⟨memOf [2,0,0,2,2,1] :: p, ?_⟩ fun _ => ?_)
    · change ((.ok 5, (heapOf p [2,0,0,2,2]).alloc (smul (lit 1 / Fl.fin 2) ((heapOf p [2,0,0,2,2]).mem 4))) : Except PyError Nat × _) = _
      rw [heapOf_mem, show (smul (lit 1 / Fl.fin 2) (Vec.fin (List.getD [(2:ℝ), 0, 0, 2, 2] 4 2)) : Vec ℝ) = .fin 1 by
        rw [Fl.lit_eq, Fl.fin_div _ (by norm_num), Vec.fin_smul]; simp, heapOf_alloc]
      rfl
    refine .of_evalP (a := 5) (l := [2,0,0,2,2,1]) ⟨_, rfl⟩ fun _ => ?_
    refine .pureBind ?_
    unfold subShiftH
    refine .of_evalP (a := ()) (l := [2,0,0,2,2,4]) ?_ fun _ => ?_
    · apply Exists.intro
      change ((.ok (), (heapOf _ [2,0,0,2,2,1]).upd 5 ((heapOf _ [2,0,0,2,2,1]).mem 5 - smul (Fl.fin (-3)) ((heapOf _ [2,0,0,2,2,1]).mem 5))) : Except PyError Unit × _) = _
      rw [heapOf_mem, vsub, heapOf_upd _ _ (by simp)]
      norm_num
      rfl
    refine .rd (.rd (.rd (.rd (.wr ?_))))
    simp only [heapOf_mem]
    rw [show (dot (Vec.fin (List.getD [(2:ℝ), 0, 0, 2, 2, 4] 5 2)) (Vec.fin (List.getD [(2:ℝ), 0, 0, 2, 2, 4] 5 2)) : Fl) = .fin 16 by
      simp [Vec.fin_dot]; norm_num]
    rw [Fl.fin_div _ (by norm_num), vsub, heapOf_upd _ _ (by simp)]
    rw [show (List.set [(2:ℝ), 0, 0, 2, 2, 4] 5 (List.getD [(2:ℝ), 0, 0, 2, 2, 4] 5 2 - 16 / 2 * List.getD [(2:ℝ), 0, 0, 2, 2, 4] 3 2)) = [2,0,0,2,2,-12] by
      simp; norm_num]
    refine .rd (.rd (.rd (.rd (.rd (.rd (.wr ?_))))))
    simp only [heapOf_mem]
    rw [show (dot (Vec.fin (List.getD [(2:ℝ), 0, 0, 2, 2, -12] 5 2)) (Vec.fin (List.getD [(2:ℝ), 0, 0, 2, 2, -12] 5 2)) : Fl) = .fin 144 by
      simp [Vec.fin_dot]; norm_num]
    rw [Fl.fin_div _ (by norm_num), vsub, heapOf_upd _ _ (by simp)]
    rw [show (List.set [(2:ℝ), 0, 0, 2, 2, -12] 5 (List.getD [(2:ℝ), 0, 0, 2, 2, -12] 5 2 - 144 / 144 * List.getD [(2:ℝ), 0, 0, 2, 2, -12] 5 2)) = [2,0,0,2,2,0] by
      simp]
    refine .rd (.of_evalP (a := 6) (l := [2,0,0,2,2,0,0]) ?_ fun _ => ?_)
    · apply Exists.intro
      change ((.ok 6, (heapOf _ [2,0,0,2,2,0]).alloc (.fin 0)) : Except PyError Nat × _) = _
      rw [heapOf_alloc]
      rfl
    refine .pureBind (.rd (.rd (.pure ?_)))
    refine ⟨?_, _, rfl⟩
    have e1 : ∀ q, (dot ((heapOf q [2, 0, 0, 2, 2, 0, 0]).mem 6) ((heapOf q [2, 0, 0, 2, 2, 0, 0]).mem 5) : Fl) = .fin 0 := by
      intro q
      simp [heapOf_mem, Vec.fin_dot]
    have e2 : lt (Fl.fin 0) (lit 0) = false := by rw [← Bool.not_eq_true, Fl.lit_eq, Fl.fin_lt]; norm_num
    have e3 : le (Fl.fin 0) symAliasKw.eps = true := by
      show le (Fl.fin 0) (Fl.fin (1/1000)) = true
      rw [Fl.fin_le]; norm_num
    simp only [e1, sqrt0, e2, e3]
    rfl
  obtain ⟨a, h', h1, rfl, q, rfl⟩ := h.to_eq
  exact ⟨q, h1⟩

theorem symFresh_start (p : List (Nat → Vec ℝ)) :
    ∃ q, symmlqStartH (symAliasObj (HOp.fresh id)) symAliasKw (HOp.fresh id) 2 1 3 4 [] (.fin 4) (0, false) (heapOf p [2, 0, 0, 2, 2]) =
      (.ok (symAliasState 6 7 4, .fin 2, false), heapOf q [2, 0, 0, 2, 2, 1, 0, 0]) := by
  have h : SimE (heapOf p [2, 0, 0, 2, 2]) (symmlqStartH (symAliasObj (HOp.fresh id)) symAliasKw (HOp.fresh id) 2 1 3 4 [] (.fin 4) (0, false)) (.ok ())
      (fun s _ h => s = (symAliasState 6 7 4, .fin 2, false) ∧ ∃ p, h = heapOf p [2, 0, 0, 2, 2, 1, 0, 0]) := by
    unfold symmlqStartH
    rw [sqrt4, symAlias_shift]
    refine .rd (.of_evalP (a := 5) (l := [2,0,0,2,2,1]) ⟨memOf [2,0,0,2,2,1] :: p, ?_⟩ fun _ => ?_)
    · change ((.ok 5, (heapOf p [2,0,0,2,2]).alloc (smul (lit 1 / Fl.fin 2) ((heapOf p [2,0,0,2,2]).mem 4))) : Except PyError Nat × _) = _
      rw [heapOf_mem, show (smul (lit 1 / Fl.fin 2) (Vec.fin (List.getD [(2:ℝ), 0, 0, 2, 2] 4 2)) : Vec ℝ) = .fin 1 by
        rw [Fl.lit_eq, Fl.fin_div _ (by norm_num), Vec.fin_smul]; simp, heapOf_alloc]
      rfl
    refine .of_evalP (a := 6) (l := [2,0,0,2,2,1,1]) ?_ fun _ => ?_
    · apply Exists.intro
      change ((.ok 6, (heapOf _ [2,0,0,2,2,1]).alloc (.fin 1)) : Except PyError Nat × _) = _
      rw [heapOf_alloc]
      rfl
    refine .pureBind ?_
    unfold subShiftH
    refine .of_evalP (a := ()) (l := [2,0,0,2,2,1,4]) ?_ fun _ => ?_
    · apply Exists.intro
      change ((.ok (), (heapOf _ [2,0,0,2,2,1,1]).upd 6 ((heapOf _ [2,0,0,2,2,1,1]).mem 6 - smul (Fl.fin (-3)) ((heapOf _ [2,0,0,2,2,1,1]).mem 5))) : Except PyError Unit × _) = _
      rw [heapOf_mem, heapOf_mem, vsub, heapOf_upd _ _ (by simp)]
      norm_num
      rfl
    refine .rd (.rd (.rd (.rd (.wr ?_))))
    simp only [heapOf_mem]
    rw [show (dot (Vec.fin (List.getD [(2:ℝ), 0, 0, 2, 2, 1, 4] 5 2)) (Vec.fin (List.getD [(2:ℝ), 0, 0, 2, 2, 1, 4] 6 2)) : Fl) = .fin 4 by
      simp [Vec.fin_dot]]
    rw [Fl.fin_div _ (by norm_num), vsub, heapOf_upd _ _ (by simp)]
    rw [show (List.set [(2:ℝ), 0, 0, 2, 2, 1, 4] 6 (List.getD [(2:ℝ), 0, 0, 2, 2, 1, 4] 6 2 - 4 / 2 * List.getD [(2:ℝ), 0, 0, 2, 2, 1, 4] 3 2)) = [2,0,0,2,2,1,0] by
      simp]
    refine .rd (.rd (.rd (.rd (.rd (.rd (.wr ?_))))))
    simp only [heapOf_mem]
    rw [show (dot (Vec.fin (List.getD [(2:ℝ), 0, 0, 2, 2, 1, 0] 5 2)) (Vec.fin (List.getD [(2:ℝ), 0, 0, 2, 2, 1, 0] 6 2)) : Fl) = .fin 0 by
      simp [Vec.fin_dot],
      show (dot (Vec.fin (List.getD [(2:ℝ), 0, 0, 2, 2, 1, 0] 5 2)) (Vec.fin (List.getD [(2:ℝ), 0, 0, 2, 2, 1, 0] 5 2)) : Fl) = .fin 1 by
      simp [Vec.fin_dot]]
    rw [Fl.fin_div _ (by norm_num), vsub, heapOf_upd _ _ (by simp)]
    rw [show (List.set [(2:ℝ), 0, 0, 2, 2, 1, 0] 6 (List.getD [(2:ℝ), 0, 0, 2, 2, 1, 0] 6 2 - 0 / 1 * List.getD [(2:ℝ), 0, 0, 2, 2, 1, 0] 5 2)) = [2,0,0,2,2,1,0] by
      simp]
    refine .rd (.of_evalP (a := 7) (l := [2,0,0,2,2,1,0,0]) ?_ fun _ => ?_)
    · apply Exists.intro
      change ((.ok 7, (heapOf _ [2,0,0,2,2,1,0]).alloc (.fin 0)) : Except PyError Nat × _) = _
      rw [heapOf_alloc]
      rfl
    refine .pureBind (.rd (.rd (.pure ?_)))
    refine ⟨?_, _, rfl⟩
    have e1 : ∀ q, (dot ((heapOf q [2, 0, 0, 2, 2, 1, 0, 0]).mem 7) ((heapOf q [2, 0, 0, 2, 2, 1, 0, 0]).mem 6) : Fl) = .fin 0 := by
      intro q
      simp [heapOf_mem, Vec.fin_dot]
    have e2 : lt (Fl.fin 0) (lit 0) = false := by rw [← Bool.not_eq_true, Fl.lit_eq, Fl.fin_lt]; norm_num
    have e3 : le (Fl.fin 0) symAliasKw.eps = true := by
      show le (Fl.fin 0) (Fl.fin (1/1000)) = true
      rw [Fl.fin_le]; norm_num
    simp only [e1, sqrt0, e2, e3]
    rfl
  obtain ⟨a, h', h1, rfl, q, rfl⟩ := h.to_eq
  exact ⟨q, h1⟩

/-- after the block: the first iteration stops because `istop` is -1, and `x = 2 / alfa` -/
theorem symAlias_run (mv : HOp (Vec ℝ)) (y r2 : Nat) {alfa : ℝ} (ha : 0 < alfa) (p : List (Nat → Vec ℝ)) (l : List ℝ) :
    ∃ r h', symmlqRunH (symAliasObj mv) symAliasKw 4 0 (symAliasState y r2 alfa) (.fin 2) false (heapOf p (2 :: 0 :: 0 :: l)) = (.ok r, h') ∧
      h'.mem r.x = Vec.fin (2 / alfa) := by
  have hd : feq (symAliasState y r2 alfa).gbar (lit 0) = false := feq_fin_false ha.ne'
  have ha' : Scalar.abs (Fl.fin alfa) = .fin alfa := by simp [Fl.fin_abs, abs_of_pos ha]
  have ht : ∃ t, symmlqTestH symAliasKw 4 (.fin 2) (symAliasState y r2 alfa) = t ∧ t.lqDiag = some (.fin 2, .fin alfa) ∧ t.cgnorm = .fin 0 ∧
      t.broke = true ∧ t.x = 2 ∧ t.w = 1 ∧ t.rhs1 = .fin 2 ∧ t.snprod = .fin 1 ∧ t.bstep = .fin 0 := by
    refine ⟨_, rfl, ?_, ?_, rfl, rfl, rfl, rfl, by simp [symmlqTestH, symAliasState], by simp [symmlqTestH, symAliasState]⟩
    · simp only [symmlqTestH, hd, Bool.false_eq_true, if_false]
      simp only [symAliasState, Fl.lit_eq, Fl.fin_mul, Fl.fin_add]
      rw [show (2:ℝ) * 2 + ((0:ℚ):ℝ) * ((0:ℚ):ℝ) = 4 by norm_num, sqrt4]
    · simp only [symmlqTestH, hd, Bool.false_eq_true, if_false]
      simp only [symAliasState, Fl.lit_eq, Fl.fin_mul, ha']
      rw [Fl.fin_div _ ha.ne']
      norm_num
  obtain ⟨t, ht, t1, t2, t3, t4, t5, t6, t7, t8⟩ := ht
  have h : SimE (heapOf p (2 :: 0 :: 0 :: l)) (symmlqRunH (symAliasObj mv) symAliasKw 4 0 (symAliasState y r2 alfa) (.fin 2) false) (.ok ())
      (fun r _ h => h.mem r.x = Vec.fin (2 / alfa)) := by
    unfold symmlqRunH
    refine .of_eval (a := t) (h' := heapOf p (2 :: 0 :: 0 :: l)) ?_ ?_
    · unfold symmlqMainH
      rw [if_neg (by simp)]
      unfold symmlqLoopH
      have hs : symmlqStepH (symAliasObj mv) symAliasKw 4 (.fin 2) (symAliasState y r2 alfa) (heapOf p (2 :: 0 :: 0 :: l)) =
          (.ok t, heapOf p (2 :: 0 :: 0 :: l)) := by
        unfold symmlqStepH
        rw [ht, t3]
        rfl
      rw [heapLoop_of_cont rfl hs, heapLoop_of_not]
      simp [symmlqContH, t3]
    · rw [t1]
      simp only
      unfold symmlqFinishH
      have hlt : lt (Fl.fin 0) (Fl.fin 2) = true := by rw [Fl.fin_lt]; norm_num
      rw [t2, t4, t5, t6, t7, t8, hlt]
      unfold symmlqToCGH
      simp only [if_true]
      refine .of_evalP (a := ()) (l := 2 :: 0 :: 0 :: l) ?_ fun _ => ?_
      · apply Exists.intro
        change ((.ok (), (heapOf p (2 :: 0 :: 0 :: l)).upd 2 ((heapOf p (2 :: 0 :: 0 :: l)).mem 2 + smul (Fl.fin 2 / Fl.fin alfa) ((heapOf p (2 :: 0 :: 0 :: l)).mem 1))) : Except PyError Unit × _) = _
        rw [heapOf_mem, heapOf_mem, Fl.fin_div _ ha.ne', Vec.fin_smul, Vec.fin_add, heapOf_upd _ _ (by simp)]
        simp
        rfl
      refine .of_evalP (a := l.length + 3) (l := (2 :: 0 :: 0 :: l) ++ [2]) ?_ fun _ => ?_
      · apply Exists.intro
        change ((.ok (2 :: 0 :: 0 :: l).length, (heapOf _ (2 :: 0 :: 0 :: l)).alloc ((heapOf _ (2 :: 0 :: 0 :: l)).mem 0)) : Except PyError Nat × _) = _
        rw [heapOf_mem, heapOf_alloc]
        simp
        rfl
      have hval : (List.getD (2 :: 0 :: 0 :: l ++ [(2:ℝ)]) 2 2 + ((1 * (2 / alfa) + 0) / 2) • List.getD (2 :: 0 :: 0 :: l ++ [(2:ℝ)]) (l.length + 3) 2) = 2 / alfa := by
        have e1 : List.getD (2 :: 0 :: 0 :: l ++ [(2:ℝ)]) 2 2 = 0 := rfl
        have e2 : List.getD (2 :: 0 :: 0 :: l ++ [(2:ℝ)]) (l.length + 3) 2 = 2 := by simp
        rw [e1, e2, smul_eq_mul]
        field_simp
        ring
      refine .rd (.rd (.of_evalP (a := ()) (l := (2 :: 0 :: (2 / alfa) :: l) ++ [2]) ?_ fun _ => ?_))
      · apply Exists.intro
        change ((.ok (), (heapOf _ ((2 :: 0 :: 0 :: l) ++ [2])).upd 2 ((heapOf _ ((2 :: 0 :: 0 :: l) ++ [2])).mem 2 +
          smul ((Fl.fin 1 * (Fl.fin 2 / Fl.fin alfa) + Fl.fin 0) / Fl.fin 2) ((heapOf _ ((2 :: 0 :: 0 :: l) ++ [2])).mem (l.length + 3)))) : Except PyError Unit × _) = _
        rw [heapOf_mem, heapOf_mem, Fl.fin_div _ ha.ne', Fl.fin_mul, Fl.fin_add, Fl.fin_div _ (by norm_num), Vec.fin_smul, Vec.fin_add, hval,
          heapOf_upd _ _ (by simp)]
        rfl
      refine .of_evalP (a := l.length + 4) (l := (2 :: 0 :: (2 / alfa) :: l) ++ [2] ++ [2 / alfa]) ?_ fun _ => ?_
      · apply Exists.intro
        change ((.ok ((2 :: 0 :: (2 / alfa) :: l) ++ [2]).length, (heapOf _ ((2 :: 0 :: (2 / alfa) :: l) ++ [2])).alloc (.fin (2 / alfa))) : Except PyError Nat × _) = _
        rw [heapOf_alloc]
        simp
        rfl
      rw [symAlias_shift]
      unfold subShiftH
      refine .of_evalP (a := ()) (l := (2 :: 0 :: (2 / alfa) :: l) ++ [2] ++ [4 * (2 / alfa)]) ?_ fun _ => ?_
      · apply Exists.intro
        change ((.ok (), (heapOf _ ((2 :: 0 :: (2 / alfa) :: l) ++ [2] ++ [2 / alfa])).upd (l.length + 4) (
          (heapOf _ ((2 :: 0 :: (2 / alfa) :: l) ++ [2] ++ [2 / alfa])).mem (l.length + 4) - smul (Fl.fin (-3)) (Vec.fin (2 / alfa)))) : Except PyError Unit × _) = _
        rw [heapOf_mem, vsub, heapOf_upd _ _ (by simp)]
        have e1 : List.getD ((2 :: 0 :: (2 / alfa) :: l) ++ [2] ++ [2 / alfa]) (l.length + 4) 2 = 2 / alfa := by simp
        have e2 : List.set ((2 :: 0 :: (2 / alfa) :: l) ++ [2] ++ [2 / alfa]) (l.length + 4) (4 * (2 / alfa)) = (2 :: 0 :: (2 / alfa) :: l) ++ [2] ++ [4 * (2 / alfa)] := by
          simp
        rw [e1, show 2 / alfa - -3 * (2 / alfa) = 4 * (2 / alfa) by ring, e2]
      refine .rd (.rd (.new (.rd (.rd (.pure ?_)))))
      rfl
  exact h.to_eq

theorem symAlias_solve (mv : HOp (Vec ℝ)) (y r2 : Nat) {alfa : ℝ} (ha : 0 < alfa) (l : List ℝ)
    (hs : ∀ p, ∃ q, symmlqStartH (symAliasObj mv) symAliasKw mv 2 1 3 4 [] (.fin 4) (0, false) (heapOf p [2, 0, 0, 2, 2]) =
      (.ok (symAliasState y r2 alfa, .fin 2, false), heapOf q (2 :: 0 :: 0 :: l))) :
    ∃ r h', symmlqSolveH (symAliasObj mv) 1 0 symAliasKw (heapOf [] [2]) = (.ok r, h') ∧ h'.mem r.x = Vec.fin (2 / alfa) := by
  have h : SimE (heapOf [] [2]) (symmlqSolveH (symAliasObj mv) 1 0 symAliasKw) (.ok ()) (fun r _ h => h.mem r.x = Vec.fin (2 / alfa)) := by
    unfold symmlqSolveH
    have hz : (zeros : Vec ℝ) = .fin 0 := rfl
    have al : ∀ (l : List ℝ) (a : ℝ) (p : List (Nat → Vec ℝ)), ∃ q, (hnew (.fin a) : HeapE (Vec ℝ) Nat) (heapOf p l) = (.ok l.length, heapOf q (l ++ [a])) := by
      intro l a p
      apply Exists.intro
      change ((.ok l.length, (heapOf p l).alloc (.fin a)) : Except PyError Nat × _) = _
      rw [heapOf_alloc]
    refine .of_evalP (a := 1) (l := [2,0]) (al [2] 0 _) fun _ => ?_
    refine .of_evalP (a := 2) (l := [2,0,0]) (al [2,0] 0 _) fun _ => ?_
    refine .append ?_
    refine .rd (.of_evalP (a := 3) (l := [2,0,0,2]) (al [2,0,0] 2 _) fun _ => ?_)
    refine .of_evalP (a := 4) (l := [2,0,0,2,2]) (al [2,0,0,2] 2 _) fun _ => ?_
    rw [if_neg (by norm_num)]
    unfold symmlqBodyH
    refine .rd (.rd ?_)
    have e1 : ∀ q, (dot ((heapOf q [2, 0, 0, 2, 2]).mem 3) ((heapOf q [2, 0, 0, 2, 2]).mem 4) : Fl) = .fin 4 := by
      intro q
      simp [heapOf_mem, Vec.fin_dot]; norm_num
    simp only [e1]
    have e2 : lt (Fl.fin 4) (lit 0) = false := by rw [← Bool.not_eq_true, Fl.lit_eq, Fl.fin_lt]; norm_num
    have e3 : feq (Fl.fin 4) (lit 0) = false := feq_fin_false (by norm_num)
    rename_i q0
    refine .of_evalP (a := (0, false)) (l := [2,0,0,2,2]) ⟨q0, ?_⟩ fun q => ?_
    · unfold symmlqEntryH
      rw [e2, e3]
      rfl
    · rw [if_pos ((gt_fin_zero 4).2 (by norm_num))]
      refine .of_evalP (hs _) fun q => ?_
      obtain ⟨r, h', hr, hx⟩ := symAlias_run mv y r2 ha q l
      unfold SimE
      have hr' : symmlqRunH (symAliasObj mv) symAliasKw (symAliasKw.matvecMax.getD (2 * 1 + 2)) 0
          (symAliasState y r2 alfa, Fl.fin 2, false).1 (symAliasState y r2 alfa, Fl.fin 2, false).2.1
          (symAliasState y r2 alfa, Fl.fin 2, false).2.2 (heapOf q (2 :: 0 :: 0 :: l)) = (.ok r, h') := hr
      rw [hr']
      exact hx
  exact h.to_eq

/-- **C54, negative (SYMMLQ).**  In exact arithmetic, for `(A + 3 I) x = 2` with `A = I` (one unknown, so `x = 1/2`): with an attribute
`matvec` that returns new arrays SYMMLQ gives `x = 1/2`; with `matvec = lambda v: v`, which returns its argument, it gives `x = 1/8`, because
`y -= shift * v` (`symmlq.py:177`) also changes `v`. -/
theorem C54_symmlq_violated :
    let kw : SymmlqKw Fl := { rtol := .fin 0, shift := some (.fin (-3)), eps := .fin (1/1000), eps3 := .fin (1/10) }
    let self : HOp (Vec ℝ) → SymmlqObjH (Vec ℝ) := fun mv => ⟨HOp.fresh id, none, some mv⟩
    let h : Heap (Vec ℝ) := ⟨fun _ => .fin 2, 1, []⟩
    (∃ r h', symmlqSolveH (self (HOp.fresh id)) 1 0 kw h = (.ok r, h') ∧ h'.mem r.x = Vec.fin (1/2 : ℝ)) ∧
    (∃ r h', symmlqSolveH (self HOp.identity) 1 0 kw h = (.ok r, h') ∧ h'.mem r.x = Vec.fin (1/8 : ℝ)) := by
  have e : heapOf [] [2] = (⟨fun _ => .fin 2, 1, []⟩ : Heap (Vec ℝ)) := by
    unfold heapOf memOf
    simp only [List.length_singleton, Heap.mk.injEq, and_true]
    funext k
    rcases k with _ | k <;> rfl
  have h1 := symAlias_solve (HOp.fresh id) 6 7 (alfa := 4) (by norm_num) _ symFresh_start
  have h2 := symAlias_solve HOp.identity 5 6 (alfa := 16) (by norm_num) _ symAlias_start
  rw [e] at h1 h2
  norm_num at h1 h2
  exact ⟨h1, h2⟩

end Verif.Solver
