import Verif.Solver.HeapLSQR
import Verif.Solver.LSQRExact

/-!
# One iteration of LSQR when the preconditioner returns its argument

The equation `4 x = 2`, one unknown, in exact arithmetic.  Used in `Verif.Solver.HeapProps2` for a violation of C54.
-/

namespace Verif.Solver
open Scalar Vect

theorem simE_exc {W α : Type} {γ : Type} {h : Heap W} {a : γ} {x : Except PyError γ} {f : γ → HeapE W α} {R : α → Unit → Heap W → Prop}
    (hx : x = .ok a) (hf : SimE h (f a) (.ok ()) R) : SimE h (hexc x >>= f) (.ok ()) R := by
  subst hx
  exact hf

theorem SimE.to_eq {W α : Type} {h : Heap W} {m : HeapE W α} {R : α → Unit → Heap W → Prop} (hs : SimE h m (.ok ()) R) :
    ∃ a h', m h = (.ok a, h') ∧ R a () h' := by
  unfold SimE at hs
  cases hm : m h with
  | mk r h' =>
    rw [hm] at hs
    cases r with
    | ok a => exact ⟨a, h', rfl, hs⟩
    | error e => exact hs.elim

/-- damping 0 and one iteration -/
def aliasKw : LsqrKw Fl (Vec ℝ) (Vec ℝ) :=
  { itnlim := 1, damp := .fin 0, atol := .fin 0, btol := .fin 0, conlim := .fin 0, etol := .fin 0, inf := .fin 0 }

/-- multiplication by 4, into a new array -/
def aliasOp : HOp (Vec ℝ) := ⟨Vec.op (fun x => 4 * x), fun _ _ => false, fun _ _ h => (by cases h)⟩

/-- the identity, which returns its argument itself -/
def aliasPrecon : HOp (Vec ℝ) := ⟨id, fun _ _ => true, fun _ _ _ => rfl⟩

theorem pysqrt_sq {a b : ℝ} (hb : 0 ≤ b) (h : a = b * b) : pysqrt (Fl.fin a) = .ok (.fin b) := by
  rw [pysqrt_fin (by rw [h]; exact mul_self_nonneg b), h, Real.sqrt_mul_self hb]

/-- the contents of these arrays, of one entry each -/
def memOf (l : List ℝ) : Nat → Vec ℝ := fun k => .fin (l.getD k 2)

/-- the heap with these arrays, of one entry each -/
def heapOf (p : List (Nat → Vec ℝ)) (l : List ℝ) : Heap (Vec ℝ) := ⟨memOf l, l.length, p⟩

theorem memOf_append (l : List ℝ) (a : ℝ) : (fun k => if k = l.length then Vec.fin a else memOf l k) = memOf (l ++ [a]) := by
  funext k
  unfold memOf
  by_cases h : k = l.length
  · subst h; simp
  · rw [if_neg h]
    congr 1
    simp only [List.getD_eq_getElem?_getD]
    rw [List.getElem?_append]
    split
    · rfl
    · rw [List.getElem?_eq_none (by omega), List.getElem?_eq_none (by simp; omega)]

theorem memOf_set (l : List ℝ) (k : Nat) (hk : k < l.length) (a : ℝ) :
    (fun j => if j = k then Vec.fin a else memOf l j) = memOf (l.set k a) := by
  funext j
  unfold memOf
  by_cases h : j = k
  · subst h; simp [hk]
  · rw [if_neg h]
    congr 1
    simp only [List.getD_eq_getElem?_getD, List.getElem?_set]
    rw [if_neg (fun h' => h h'.symm)]

theorem heapOf_alloc {p : List (Nat → Vec ℝ)} (l : List ℝ) (a : ℝ) :
    (heapOf p l).alloc (.fin a) = heapOf (memOf (l ++ [a]) :: p) (l ++ [a]) := by
  unfold heapOf Heap.alloc
  rw [memOf_append]
  simp

theorem heapOf_upd {p : List (Nat → Vec ℝ)} (l : List ℝ) (k : Nat) (hk : k < l.length) (a : ℝ) :
    (heapOf p l).upd k (.fin a) = heapOf (memOf (l.set k a) :: p) (l.set k a) := by
  unfold heapOf Heap.upd
  rw [memOf_set l k hk]
  simp

theorem heapOf_mem {p : List (Nat → Vec ℝ)} (l : List ℝ) (k : Nat) : (heapOf p l).mem k = .fin (l.getD k 2) := rfl

theorem aliasOp_call {p : List (Nat → Vec ℝ)} (l : List ℝ) (k : Nat) :
    call aliasOp k (heapOf p l) = (l.length, heapOf (memOf (l ++ [4 * l.getD k 2]) :: p) (l ++ [4 * l.getD k 2])) := by
  rw [call_fresh _ _ _ rfl, heapOf_mem]
  exact congrArg₂ _ rfl (heapOf_alloc _ _)

/-- code run before other code, with the arrays it leaves -/
theorem SimE.of_evalP {α α' β' : Type} {h : Heap (Vec ℝ)} {m : HeapE (Vec ℝ) α} {a : α} {l : List ℝ} {f : α → HeapE (Vec ℝ) α'}
    {p : Except PyError β'} {R : α' → β' → Heap (Vec ℝ) → Prop} (hm : ∃ q, m h = (.ok a, heapOf q l))
    (hf : ∀ q, SimE (heapOf q l) (f a) p R) : SimE h (m >>= f) p R := by
  obtain ⟨q, hm⟩ := hm
  exact .of_eval hm (hf q)

theorem vdivf {a b c : ℝ} (hb : b ≠ 0) (h : a = c * b) : vdiv (Vec.fin a) (.fin b) = Vec.fin c := by
  rw [Vec.fin_vdiv _ hb, h, smul_eq_mul]
  field_simp

theorem aliasStart (p : List (Nat → Vec ℝ)) : ∃ q, bidiagStartH (S := Fl) aliasOp none (some aliasPrecon) 0 (heapOf p [2, 0, 0]) =
    (.ok (3, 3, .fin 2, some (4, 4), .fin 4, 1), heapOf q [2, 0, 0, 1, 1/4]) := by
  have e1 : pysqrt (dot (Vec.fin (2:ℝ)) (Vec.fin 2)) = .ok (.fin 2) := pysqrt_sq (by norm_num) (by simp; norm_num)
  have e2 : pysqrt (dot (Vec.fin (4:ℝ)) (Vec.fin 4)) = .ok (.fin 4) := pysqrt_sq (by norm_num) (by simp; norm_num)
  have h : SimE (heapOf p [2,0,0]) (bidiagStartH (S := Fl) aliasOp none (some aliasPrecon) 0) (.ok ()) (fun s _ h =>
      s = (3, 3, .fin 2, some (4, 4), .fin 4, 1) ∧ ∃ p, h = heapOf p [2, 0, 0, 1, 1/4]) := by
    unfold bidiagStartH
    refine .rd (.new ?_)
    rw [heapOf_mem, heapOf_alloc]
    refine .precon ?_
    change SimE (heapOf _ [2,0,0,2]) (hrd 3 >>= _) _ _
    refine .rd (.rd (simE_exc (a := Fl.fin 2) e1 ?_))
    rw [if_pos ((gt_fin_zero 2).2 (by norm_num))]
    refine .of_evalP (a := ()) (l := [2,0,0,1]) ?_ fun _ => ?_
    · apply Exists.intro
      change ((.ok (), (heapOf _ [2,0,0,2]).upd 3 (vdiv ((heapOf _ [2,0,0,2]).mem 3) (Fl.fin 2))) : Except PyError Unit × _) = _
      rw [heapOf_mem, vdivf (c := 1) (by norm_num) (by simp), heapOf_upd _ _ (by simp)]
      rfl
    refine .call ?_
    rw [aliasOp_call]
    change SimE (heapOf _ [2,0,0,1,4 * 1]) (hprecon _ 4 >>= _) _ _
    rw [mul_one]
    refine .precon ?_
    change SimE (heapOf _ [2,0,0,1,4]) (hrd 4 >>= _) _ _
    refine .rd (.rd (simE_exc (a := Fl.fin 4) e2 (.of_evalP (a := ()) (l := [2,0,0,1,1/4]) ?_ fun _ => (.pure ⟨rfl, _, rfl⟩))))
    unfold hscaleIf
    rw [if_pos ((gt_fin_zero 4).2 (by norm_num))]
    have q1 : ∀ p, ∃ q, (heapOf p [2,0,0,1,4]).upd 4 (vdiv ((heapOf p [2,0,0,1,4]).mem 4) (Fl.fin 4)) = heapOf q [2,0,0,1,1] := by
      intro p; apply Exists.intro
      rw [heapOf_mem, vdivf (c := 1) (by norm_num) (by simp), heapOf_upd _ _ (by simp)]
      rfl
    have q2 : ∀ p, ∃ q, (heapOf p [2,0,0,1,1]).upd 4 (vdiv ((heapOf p [2,0,0,1,1]).mem 4) (Fl.fin 4)) = heapOf q [2,0,0,1,1/4] := by
      intro p; apply Exists.intro
      rw [heapOf_mem, vdivf (c := 1/4) (by norm_num) (by simp), heapOf_upd _ _ (by simp)]
      rfl
    have key : ∀ p, ∃ q, ((.ok (), ((heapOf p [2,0,0,1,4]).upd 4 (vdiv ((heapOf p [2,0,0,1,4]).mem 4) (Fl.fin 4))).upd 4 (vdiv
      (((heapOf p [2,0,0,1,4]).upd 4 (vdiv ((heapOf p [2,0,0,1,4]).mem 4) (Fl.fin 4))).mem 4) (Fl.fin 4))) : Except PyError Unit × _) = (.ok (), heapOf q [2,0,0,1,1/4]) := by
      intro p
      obtain ⟨_, q1⟩ := q1 p
      obtain ⟨_, q2⟩ := q2 _
      rw [q1, q2]
      exact ⟨_, rfl⟩
    exact key _
  obtain ⟨a, h', h1, rfl, q, rfl⟩ := h.to_eq
  exact ⟨q, h1⟩

/-- the first iteration of the bidiagonalization: `Mu = u` is the array 7, `Nv = v` the array 9 -/
theorem aliasStep (p : List (Nat → Vec ℝ)) : ∃ q, bidiagStepH (S := Fl) aliasOp aliasOp none (some aliasPrecon) 3 (some 4) 4 (.fin 4) (heapOf p [2, 0, 0, 1, 1/4, 1/4]) =
    (.ok (7, 7, some 9, 9, .fin (19/4), .fin 3, 2), heapOf q [2, 0, 0, 1, 1/4, 1/4, 1, -1, -4, -4/19]) := by
  have e1 : pysqrt (dot (Vec.fin (-3:ℝ)) (Vec.fin (-3))) = .ok (.fin 3) := pysqrt_sq (by norm_num) (by simp; norm_num)
  have e2 : pysqrt (dot (Vec.fin (-19/4:ℝ)) (Vec.fin (-19/4))) = .ok (.fin (19/4)) := pysqrt_sq (by norm_num) (by simp; norm_num)
  have h : SimE (heapOf p [2, 0, 0, 1, 1/4, 1/4]) (bidiagStepH (S := Fl) aliasOp aliasOp none (some aliasPrecon) 3 (some 4) 4 (.fin 4))
      (.ok ()) (fun s _ h => s = (7, 7, some 9, 9, .fin (19/4), .fin 3, 2) ∧ ∃ p, h = heapOf p [2, 0, 0, 1, 1/4, 1/4, 1, -1, -4, -4/19]) := by
    unfold bidiagStepH
    refine .call ?_
    rw [aliasOp_call]
    change SimE (heapOf _ [2, 0, 0, 1, 1/4, 1/4, 4 * (1/4)]) (hrd 6 >>= _) _ _
    rw [show (4:ℝ) * (1/4) = 1 by norm_num]
    refine .rd (.rd (.new ?_))
    change SimE ((heapOf _ [2, 0, 0, 1, 1/4, 1/4, 1]).alloc (Vec.fin 1 - smul (Fl.fin 4) (Vec.fin 1))) (hprecon none 7 >>= _) _ _
    rw [Vec.fin_smul, Vec.fin_sub, heapOf_alloc, show (1:ℝ) - (4:ℝ) • 1 = -3 by norm_num]
    refine .precon ?_
    change SimE (heapOf _ [2, 0, 0, 1, 1/4, 1/4, 1, -3]) (hrd 7 >>= _) _ _
    refine .rd (.rd (simE_exc (a := Fl.fin 3) e1 ?_))
    rw [if_pos ((gt_fin_zero 3).2 (by norm_num))]
    refine .of_evalP (a := ()) (l := [2, 0, 0, 1, 1/4, 1/4, 1, -1]) ?_ fun _ => ?_
    · apply Exists.intro
      change ((.ok (), (heapOf _ [2, 0, 0, 1, 1/4, 1/4, 1, -3]).upd 7 (vdiv ((heapOf _ [2, 0, 0, 1, 1/4, 1/4, 1, -3]).mem 7) (Fl.fin 3))) :
        Except PyError Unit × _) = _
      rw [heapOf_mem, vdivf (c := -1) (by norm_num) (by simp), heapOf_upd _ _ (by simp)]
      rfl
    refine simE_exc (a := 4) rfl (.call ?_)
    rw [aliasOp_call]
    change SimE (heapOf _ [2, 0, 0, 1, 1/4, 1/4, 1, -1, 4 * -1]) (hrd 8 >>= _) _ _
    rw [show (4:ℝ) * -1 = -4 by norm_num]
    refine .rd (.rd (.new ?_))
    change SimE ((heapOf _ [2, 0, 0, 1, 1/4, 1/4, 1, -1, -4]).alloc (Vec.fin (-4) - smul (Fl.fin 3) (Vec.fin (1/4))))
      (hprecon _ 9 >>= _) _ _
    rw [Vec.fin_smul, Vec.fin_sub, heapOf_alloc, show (-4:ℝ) - (3:ℝ) • (1/4) = -19/4 by norm_num]
    refine .precon ?_
    change SimE (heapOf _ [2, 0, 0, 1, 1/4, 1/4, 1, -1, -4, -19/4]) (hrd 9 >>= _) _ _
    refine .rd (.rd (simE_exc (a := Fl.fin (19/4)) e2 (.of_evalP (a := ()) (l := [2, 0, 0, 1, 1/4, 1/4, 1, -1, -4, -4/19]) ?_ fun _ => (.pure ⟨rfl, _, rfl⟩))))
    unfold hscaleIf
    rw [if_pos ((gt_fin_zero (19/4)).2 (by norm_num))]
    have q1 : ∀ p, ∃ q, (heapOf p [2, 0, 0, 1, 1/4, 1/4, 1, -1, -4, -19/4]).upd 9
        (vdiv ((heapOf p [2, 0, 0, 1, 1/4, 1/4, 1, -1, -4, -19/4]).mem 9) (Fl.fin (19/4))) =
        heapOf q [2, 0, 0, 1, 1/4, 1/4, 1, -1, -4, -1] := by
      intro p; apply Exists.intro
      rw [heapOf_mem, vdivf (c := -1) (by norm_num) (by simp; norm_num), heapOf_upd _ _ (by simp)]
      rfl
    have q2 : ∀ p, ∃ q, (heapOf p [2, 0, 0, 1, 1/4, 1/4, 1, -1, -4, -1]).upd 9
        (vdiv ((heapOf p [2, 0, 0, 1, 1/4, 1/4, 1, -1, -4, -1]).mem 9) (Fl.fin (19/4))) =
        heapOf q [2, 0, 0, 1, 1/4, 1/4, 1, -1, -4, -4/19] := by
      intro p; apply Exists.intro
      rw [heapOf_mem, vdivf (c := -4/19) (by norm_num) (by simp; norm_num), heapOf_upd _ _ (by simp)]
      rfl
    have key : ∀ p, ∃ q, ((.ok (), Heap.upd (Heap.upd (heapOf p [2, 0, 0, 1, 1/4, 1/4, 1, -1, -4, -19/4]) 9 (vdiv ((heapOf p [2, 0, 0, 1, 1/4, 1/4, 1, -1, -4, -19/4]).mem 9) (Fl.fin (19/4)))) 9 (vdiv
      ((Heap.upd (heapOf p [2, 0, 0, 1, 1/4, 1/4, 1, -1, -4, -19/4]) 9 (vdiv ((heapOf p [2, 0, 0, 1, 1/4, 1/4, 1, -1, -4, -19/4]).mem 9) (Fl.fin (19/4)))).mem 9) (Fl.fin (19/4)))) :
      Except PyError Unit × _) = (.ok (), heapOf q [2, 0, 0, 1, 1/4, 1/4, 1, -1, -4, -4/19]) := by
      intro p
      obtain ⟨_, q1⟩ := q1 p
      obtain ⟨_, q2⟩ := q2 _
      rw [q1, q2]
      exact ⟨_, rfl⟩
    exact key _
  obtain ⟨a, h', h1, rfl, q, rfl⟩ := h.to_eq
  exact ⟨q, h1⟩

theorem feq_fin_false {a : ℝ} (h : a ≠ 0) : feq (Fl.fin a) (lit 0) = false := by
  have := pydiv_fin 1 h
  unfold pydiv at this
  split at this
  · cases this
  · rename_i hh; exact Bool.not_eq_true _ ▸ hh

theorem quantities_ok (kw : LsqrKw Fl (Vec ℝ) (Vec ℝ)) (hat : kw.atol = .fin 0) (direct : Bool) {bnorm Anorm Acond rnorm Arnorm xnorm : ℝ}
    (hb : 0 < bnorm) (hA : 0 ≤ Anorm) (hx : 0 ≤ xnorm) :
    ∃ t, lsqrQuantities kw direct (.fin bnorm) (.fin Anorm) (.fin Acond) (.fin rnorm) (.fin Arnorm) (.fin xnorm) = .ok t := by
  unfold lsqrQuantities
  rw [pydiv_fin _ hb.ne']
  have h2 : ∃ t, lsqrTest2 kw.inf (.fin Anorm) (.fin rnorm) (.fin Arnorm) = .ok t := by
    unfold lsqrTest2
    split
    · exact ⟨_, rfl⟩
    · rename_i h
      refine ⟨_, pydiv_fin _ (mul_ne_zero ?_ ?_)⟩ <;> intro h0 <;> subst h0 <;> apply h <;> simp [feq]
  have h3 : ∃ t, lsqrTest3 kw.inf (.fin Acond) = .ok t := by
    unfold lsqrTest3
    split
    · exact ⟨_, rfl⟩
    · rename_i h
      refine ⟨_, pydiv_fin _ ?_⟩
      intro h0; subst h0; apply h; simp [feq]
  obtain ⟨t2, h2⟩ := h2
  obtain ⟨t3, h3⟩ := h3
  rw [h2, h3, Fl.fin_mul, pydiv_fin _ hb.ne', ok_bind, ok_bind, ok_bind, ok_bind, hat, Fl.fin_mul, Fl.fin_mul, pydiv_fin _ hb.ne', Fl.lit_eq, Fl.fin_add,
    pydiv_fin _ (by have : 0 ≤ Anorm * xnorm / bnorm := div_nonneg (mul_nonneg hA hx) hb.le
                    push_cast; linarith)]
  exact ⟨_, rfl⟩

theorem sqrtf {a b : ℝ} (hb : 0 ≤ b) (h : a = b * b) : sqrt (Fl.fin a) = .fin b := by
  rw [Fl.fin_sqrt (by rw [h]; exact mul_self_nonneg b), h, Real.sqrt_mul_self hb]

theorem pydivf {a b c : ℝ} (hb : b ≠ 0) (h : a = c * b) : pydiv (Fl.fin a) (.fin b) = .ok (Fl.fin c) := by
  rw [pydiv_fin _ hb, h]
  congr 2
  field_simp

/-- the variables before the loop -/
noncomputable def aliasState : LsqrLoop Fl Nat Nat :=
  { x := 1, Mu := 3, Nv := 4, v := some 4, w := some 5, alpha := .fin 4, beta := .fin 2, rhobar := .fin 4, phibar := .fin 2,
    Anorm := lit 0, Acond := lit 0, Arnorm := .fin 4 * .fin 2, r1norm := .fin 2, r2norm := .fin 2, xnorm := lit 0,
    xxnorm := lit 0, ddnorm := lit 0, res2 := lit 0, z := lit 0, cs2 := lit (-1), sn2 := lit 0, xNrgNorm2 := lit 0,
    dErr := List.replicate 5 (lit 0), istop := 0, itn := 0, resids := [], normalEqns := [], dirErrors := [], iterates := [],
    products := 1, last := none }

theorem aliasRun (p : List (Nat → Vec ℝ)) : ∃ r h', lsqrSolveH aliasOp aliasOp 1 0 none (some aliasPrecon) aliasKw (heapOf p [2]) = (.ok r, h') ∧
    h'.mem r.1.x = .fin (2/25) := by
  have h : SimE (heapOf p [2]) (lsqrSolveH aliasOp aliasOp 1 0 none (some aliasPrecon) aliasKw) (.ok ()) (fun r _ h =>
      h.mem r.1.x = .fin (2/25)) := by
    unfold lsqrSolveH
    refine simE_exc (a := ()) rfl ?_
    have hi : SimE (heapOf p [2]) (lsqrInitH aliasOp none (some aliasPrecon) aliasKw 0) (.ok ()) (fun s _ h =>
        s = aliasState ∧ ∃ p, h = heapOf p [2, 0, 0, 1, 1/4, 1/4]) := by
      unfold lsqrInitH
      refine .new ?_
      rw [Vec.zeros_eq, heapOf_alloc]
      refine .append ?_
      change SimE (heapOf _ [2, 0]) (hnew _ >>= _) _ _
      refine .new ?_
      rw [heapOf_alloc]
      refine .of_evalP (aliasStart _) fun _ => ?_
      refine .of_evalP (a := (some 4, 4, some 5)) (l := [2, 0, 0, 1, 1/4, 1/4]) ?_ fun _ => (.pure ⟨rfl, _, rfl⟩)
      unfold lsqrFirstH lsqrWH
      dsimp only
      rw [if_pos ((gt_fin_zero 4).2 (by norm_num))]
      exact ⟨_, congrArg₂ _ rfl (heapOf_alloc _ _)⟩
    obtain ⟨s, h1, hi, rfl, p1, rfl⟩ := hi.to_eq
    refine .of_eval hi ?_
    have hst : SimE (heapOf p1 [2, 0, 0, 1, 1/4, 1/4]) (lsqrStepH aliasOp aliasOp none (some aliasPrecon) aliasKw 1 (.fin 2) aliasState) (.ok ())
        (fun t _ h => t.x = 1 ∧ t.itn = 1 ∧ h.mem 1 = .fin (2/25)) := by
      unfold lsqrStepH
      refine simE_exc (a := 4) rfl ?_
      have n4 : normof4 (lit 0) (Fl.fin 4) (Fl.fin 3) (.fin 0) = .fin 5 := by
        unfold normof4
        simp only [Fl.lit_eq, Fl.fin_mul, Fl.fin_add]
        exact sqrtf (by norm_num) (by norm_num)
      have hb : SimE (heapOf p1 [2, 0, 0, 1, 1/4, 1/4]) (lsqrBidiagH aliasOp aliasOp none (some aliasPrecon) aliasKw.damp
          aliasState 4) (.ok ())
          (fun r _ h => r = (7, 9, 9, .fin (19/4), .fin 3, .fin 5, 3) ∧ ∃ p, h = heapOf p [2, 0, 0, 1, 1/4, 1/4, 1, -1, -4, -4/19]) := by
        unfold lsqrBidiagH
        refine .of_evalP (aliasStep _) fun _ => (.pure ⟨?_, _, rfl⟩)
        rw [if_pos ((gt_fin_zero 3).2 (by norm_num))]
        change (7, 9, 9, Fl.fin (19/4), Fl.fin 3, normof4 (lit 0) (Fl.fin 4) (Fl.fin 3) (.fin 0), 3) = _
        rw [n4]
      obtain ⟨r, h', hb, rfl, p2, rfl⟩ := hb.to_eq
      refine .of_eval hb ?_
      have r1 : lsqrRot1 (Fl.fin 0) (.fin 4) (.fin 2) = .ok (.fin 4, .fin 0, .fin 2) := by
        unfold lsqrRot1
        dsimp only
        have : normof2 (Fl.fin 4) (Fl.fin 0) = .fin 4 := by
          unfold normof2
          simp only [Fl.fin_mul, Fl.fin_add]
          exact sqrtf (by norm_num) (by norm_num)
        rw [this, pydivf (c := 1) (by norm_num) (by norm_num), pydivf (c := 0) (by norm_num) (by norm_num), ok_bind, ok_bind]
        simp only [Fl.fin_mul]
        norm_num
        rfl
      have r2 : lsqrRot2 (Fl.fin 4) (.fin 3) (.fin (19/4)) (.fin 2) =
          .ok (.fin 5, .fin (57/20), .fin (-19/5), .fin (8/5), .fin (6/5), .fin (24/25), .fin (8/25), .fin (-57/100)) := by
        unfold lsqrRot2
        dsimp only
        have : normof2 (Fl.fin 4) (Fl.fin 3) = .fin 5 := by
          unfold normof2
          simp only [Fl.fin_mul, Fl.fin_add]
          exact sqrtf (by norm_num) (by norm_num)
        rw [this, pydivf (c := 4/5) (by norm_num) (by norm_num), pydivf (c := 3/5) (by norm_num) (by norm_num), ok_bind, ok_bind]
        simp only [Fl.fin_mul, Fl.fin_neg]
        rw [pydivf (c := 8/25) (by norm_num) (by norm_num), pydivf (c := -57/100) (by norm_num) (by norm_num), ok_bind, ok_bind]
        norm_num
        rfl
      refine simE_exc r1 (simE_exc r2 (simE_exc (a := .fin (1/5)) (pydivf (by norm_num) (by norm_num)) (simE_exc (a := 5) rfl ?_)))
      refine .rd (.new ?_)
      rw [heapOf_mem, Vec.fin_smul, heapOf_alloc]
      refine .rd (.rd (.wr ?_))
      change SimE ((heapOf _ [2, 0, 0, 1, 1/4, 1/4, 1, -1, -4, -4/19, (1/5:ℝ) • (1/4:ℝ)]).upd 1 (Vec.fin 0 + smul (Fl.fin (8/25)) (Vec.fin (1/4))))
        (hrd 5 >>= _) _ _
      rw [Vec.fin_smul, Vec.fin_add, heapOf_upd _ _ (by simp)]
      change SimE (heapOf _ [2, 0 + (8/25:ℝ) • (1/4:ℝ), 0, 1, 1/4, 1/4, 1, -1, -4, -4/19, (1/5:ℝ) • (1/4:ℝ)]) (hrd 5 >>= _) _ _
      rw [show 0 + (8/25:ℝ) • (1/4:ℝ) = 2/25 by norm_num, show (1/5:ℝ) • (1/4:ℝ) = 1/20 by norm_num]
      refine .rd (.wr ?_)
      rw [heapOf_mem, Vec.fin_smul, heapOf_upd _ _ (by simp)]
      refine .rd (.rd (.wr ?_))
      rw [heapOf_mem, heapOf_mem, Vec.fin_add, heapOf_upd _ _ (by simp)]
      refine .rd (.append ?_)
      rw [heapOf_mem]
      refine simE_exc (a := 1) rfl ?_
      obtain ⟨g, hg⟩ : ∃ g, g = Real.sqrt (5 * 5 + 57/20 * (57/20)) := ⟨_, rfl⟩
      have hg0 : 0 < g := by rw [hg]; exact Real.sqrt_pos.2 (by norm_num)
      have hx : lsqrXnormH (S := Fl) aliasState (.fin 5) (.fin (57/20)) (.fin (8/5)) = .ok (.fin (8/25), .fin (5/g), .fin (57/20/g), .fin (8/5/g)) := by
        unfold lsqrXnormH
        dsimp only [aliasState]
        simp only [Fl.lit_eq, Fl.fin_mul, Fl.fin_neg, Fl.fin_sub]
        push_cast
        rw [show -(-1:ℝ) * 5 = 5 by norm_num, show (8/5:ℝ) - 0 * 5 * 0 = 8/5 by norm_num, normof2_fin, ← hg, pydivf (c := 8/25) (by norm_num) (by norm_num),
          pydiv_fin _ hg0.ne', pydiv_fin _ hg0.ne', pydiv_fin _ hg0.ne']
        simp only [ok_bind, Fl.fin_mul, Fl.fin_add]
        rw [sqrtf (a := 0 + 8/25 * (8/25)) (b := 8/25) (by norm_num) (by norm_num)]
        rfl
      refine simE_exc hx ?_
      dsimp only [aliasState]
      have hq := quantities_ok aliasKw rfl (decide (0 + 1 > aliasKw.window) && lt (normList ((List.replicate 5 (lit 0)).set 1 (Fl.fin (8/5))))
        (aliasKw.etol * sqrt (lit 0 + Fl.fin (8/5) * Fl.fin (8/5)))) (bnorm := 2) (Anorm := 5) (Acond := 5 * (1/20)) (rnorm := 6/5)
        (Arnorm := 19/4 * (24/25)) (xnorm := 8/25) (by norm_num) (by norm_num) (by norm_num)
      obtain ⟨t, hq⟩ := hq
      refine simE_exc (a := t) ?_ (.pure ⟨rfl, rfl, rfl⟩)
      rw [← hq]
      have q1 : ∀ (l : List ℝ) (k : Nat), l.getD k 2 = 1/20 →
          (lit 0 + norm (Vec.fin (l.getD k 2)) * norm (Vec.fin (l.getD k 2)) : Fl) = .fin (1/20 * (1/20)) := by
        intro l k hl
        rw [hl]
        simp
      congr 1
      · rw [q1 _ _ (by simp [heapOf]), sqrtf (b := 1/20) (by norm_num) rfl, Fl.fin_mul]
      · simp only [Fl.lit_eq, Fl.fin_mul, Fl.fin_add]
        exact sqrtf (by norm_num) (by norm_num)
      · simp [abs_of_pos]
    obtain ⟨t, h2, hst, ht1, ht2, ht3⟩ := hst.to_eq
    refine .of_eval (a := t) (h' := h2) ?_ (.pure ?_)
    · have hm : lsqrMainH aliasOp aliasOp none (some aliasPrecon) aliasKw 1 aliasState =
          lsqrLoopH aliasOp aliasOp none (some aliasPrecon) aliasKw 1 (.fin 2) aliasState := by
        unfold lsqrMainH
        have : feq aliasState.Arnorm (lit 0) = false := by
          change feq (Fl.fin 4 * Fl.fin 2) (lit 0) = false
          rw [Fl.fin_mul]
          exact feq_fin_false (by norm_num)
        rw [this]
        rfl
      change lsqrMainH aliasOp aliasOp none (some aliasPrecon) aliasKw 1 aliasState _ = _
      rw [hm]
      unfold lsqrLoopH
      rw [heapLoop_of_cont rfl hst, heapLoop_of_not]
      simp [lsqrContH, ht2]
    · change h2.mem t.x = _
      rw [ht1]
      exact ht3
  exact h.to_eq

/-! ### The same with an identity that returns a new array -/

/-- the identity, into a new array -/
def freshPrecon : HOp (Vec ℝ) := ⟨id, fun _ _ => false, fun _ _ h => (by cases h)⟩

theorem freshPrecon_call {p : List (Nat → Vec ℝ)} (l : List ℝ) (k : Nat) :
    callPrecon (some freshPrecon) k (heapOf p l) = (l.length, heapOf (memOf (l ++ [l.getD k 2]) :: p) (l ++ [l.getD k 2])) := by
  change call freshPrecon k (heapOf p l) = _
  rw [call_fresh _ _ _ rfl, heapOf_mem]
  exact congrArg₂ _ rfl (heapOf_alloc _ _)

theorem freshStart (p : List (Nat → Vec ℝ)) : ∃ q, bidiagStartH (S := Fl) aliasOp none (some freshPrecon) 0 (heapOf p [2, 0, 0]) =
    (.ok (3, 3, .fin 2, some (5, 4), .fin 4, 1), heapOf q [2, 0, 0, 1, 1, 1]) := by
  have e1 : pysqrt (dot (Vec.fin (2:ℝ)) (Vec.fin 2)) = .ok (.fin 2) := pysqrt_sq (by norm_num) (by simp; norm_num)
  have e2 : pysqrt (dot (Vec.fin (4:ℝ)) (Vec.fin 4)) = .ok (.fin 4) := pysqrt_sq (by norm_num) (by simp; norm_num)
  have h : SimE (heapOf p [2,0,0]) (bidiagStartH (S := Fl) aliasOp none (some freshPrecon) 0) (.ok ()) (fun s _ h =>
      s = (3, 3, .fin 2, some (5, 4), .fin 4, 1) ∧ ∃ p, h = heapOf p [2, 0, 0, 1, 1, 1]) := by
    unfold bidiagStartH
    refine .rd (.new ?_)
    rw [heapOf_mem, heapOf_alloc]
    refine .precon ?_
    change SimE (heapOf _ [2,0,0,2]) (hrd 3 >>= _) _ _
    refine .rd (.rd (simE_exc (a := Fl.fin 2) e1 ?_))
    rw [if_pos ((gt_fin_zero 2).2 (by norm_num))]
    refine .of_evalP (a := ()) (l := [2,0,0,1]) ?_ fun _ => ?_
    · apply Exists.intro
      change ((.ok (), (heapOf _ [2,0,0,2]).upd 3 (vdiv ((heapOf _ [2,0,0,2]).mem 3) (Fl.fin 2))) : Except PyError Unit × _) = _
      rw [heapOf_mem, vdivf (c := 1) (by norm_num) (by simp), heapOf_upd _ _ (by simp)]
      rfl
    refine .call ?_
    rw [aliasOp_call]
    change SimE (heapOf _ [2,0,0,1,4 * 1]) (hprecon _ 4 >>= _) _ _
    rw [mul_one]
    refine .precon ?_
    rw [freshPrecon_call]
    change SimE (heapOf _ [2,0,0,1,4,4]) (hrd 5 >>= _) _ _
    refine .rd (.rd (simE_exc (a := Fl.fin 4) e2 (.of_evalP (a := ()) (l := [2,0,0,1,1,1]) ?_ fun _ => (.pure ⟨rfl, _, rfl⟩))))
    unfold hscaleIf
    rw [if_pos ((gt_fin_zero 4).2 (by norm_num))]
    have q1 : ∀ p, ∃ q, (heapOf p [2,0,0,1,4,4]).upd 5 (vdiv ((heapOf p [2,0,0,1,4,4]).mem 5) (Fl.fin 4)) = heapOf q [2,0,0,1,4,1] := by
      intro p; apply Exists.intro
      rw [heapOf_mem, vdivf (c := 1) (by norm_num) (by simp), heapOf_upd _ _ (by simp)]
      rfl
    have q2 : ∀ p, ∃ q, (heapOf p [2,0,0,1,4,1]).upd 4 (vdiv ((heapOf p [2,0,0,1,4,1]).mem 4) (Fl.fin 4)) = heapOf q [2,0,0,1,1,1] := by
      intro p; apply Exists.intro
      rw [heapOf_mem, vdivf (c := 1) (by norm_num) (by simp), heapOf_upd _ _ (by simp)]
      rfl
    have key : ∀ p, ∃ q, ((.ok (), ((heapOf p [2,0,0,1,4,4]).upd 5 (vdiv ((heapOf p [2,0,0,1,4,4]).mem 5) (Fl.fin 4))).upd 4 (vdiv
      (((heapOf p [2,0,0,1,4,4]).upd 5 (vdiv ((heapOf p [2,0,0,1,4,4]).mem 5) (Fl.fin 4))).mem 4) (Fl.fin 4))) : Except PyError Unit × _) = (.ok (), heapOf q [2,0,0,1,1,1]) := by
      intro p
      obtain ⟨_, q1⟩ := q1 p
      obtain ⟨_, q2⟩ := q2 _
      rw [q1, q2]
      exact ⟨_, rfl⟩
    exact key _
  obtain ⟨a, h', h1, rfl, q, rfl⟩ := h.to_eq
  exact ⟨q, h1⟩

theorem freshStep (p : List (Nat → Vec ℝ)) : ∃ q, bidiagStepH (S := Fl) aliasOp aliasOp none (some freshPrecon) 3 (some 4) 5 (.fin 4) (heapOf p [2, 0, 0, 1, 1, 1, 1]) =
    (.ok (8, 8, some 4, 5, .fin 4, .fin 0, 1), heapOf q [2, 0, 0, 1, 1, 1, 1, 4, 0]) := by
  have e1 : pysqrt (dot (Vec.fin (0:ℝ)) (Vec.fin 0)) = .ok (.fin 0) := pysqrt_sq le_rfl (by simp)
  have h : SimE (heapOf p [2, 0, 0, 1, 1, 1, 1]) (bidiagStepH (S := Fl) aliasOp aliasOp none (some freshPrecon) 3 (some 4) 5 (.fin 4))
      (.ok ()) (fun s _ h => s = (8, 8, some 4, 5, .fin 4, .fin 0, 1) ∧ ∃ p, h = heapOf p [2, 0, 0, 1, 1, 1, 1, 4, 0]) := by
    unfold bidiagStepH
    refine .call ?_
    rw [aliasOp_call]
    change SimE (heapOf _ [2, 0, 0, 1, 1, 1, 1, 4 * 1]) (hrd 7 >>= _) _ _
    rw [mul_one]
    refine .rd (.rd (.new ?_))
    change SimE ((heapOf _ [2, 0, 0, 1, 1, 1, 1, 4]).alloc (Vec.fin 4 - smul (Fl.fin 4) (Vec.fin 1))) (hprecon none 8 >>= _) _ _
    rw [Vec.fin_smul, Vec.fin_sub, heapOf_alloc, show (4:ℝ) - (4:ℝ) • 1 = 0 by norm_num]
    refine .precon ?_
    change SimE (heapOf _ [2, 0, 0, 1, 1, 1, 1, 4, 0]) (hrd 8 >>= _) _ _
    refine .rd (.rd (simE_exc (a := Fl.fin 0) e1 ?_))
    rw [if_neg (fun h => lt_irrefl _ ((gt_fin_zero 0).1 h))]
    exact .pure ⟨rfl, _, rfl⟩
  obtain ⟨a, h', h1, rfl, q, rfl⟩ := h.to_eq
  exact ⟨q, h1⟩

/-- the variables before the loop -/
noncomputable def freshState : LsqrLoop Fl Nat Nat :=
  { aliasState with v := some 5, w := some 6 }

theorem freshRun (p : List (Nat → Vec ℝ)) : ∃ r h', lsqrSolveH aliasOp aliasOp 1 0 none (some freshPrecon) aliasKw (heapOf p [2]) = (.ok r, h') ∧
    h'.mem r.1.x = .fin (1/2) := by
  have h : SimE (heapOf p [2]) (lsqrSolveH aliasOp aliasOp 1 0 none (some freshPrecon) aliasKw) (.ok ()) (fun r _ h =>
      h.mem r.1.x = .fin (1/2)) := by
    unfold lsqrSolveH
    refine simE_exc (a := ()) rfl ?_
    have hi : SimE (heapOf p [2]) (lsqrInitH aliasOp none (some freshPrecon) aliasKw 0) (.ok ()) (fun s _ h =>
        s = freshState ∧ ∃ p, h = heapOf p [2, 0, 0, 1, 1, 1, 1]) := by
      unfold lsqrInitH
      refine .new ?_
      rw [Vec.zeros_eq, heapOf_alloc]
      refine .append ?_
      change SimE (heapOf _ [2, 0]) (hnew _ >>= _) _ _
      refine .new ?_
      rw [heapOf_alloc]
      refine .of_evalP (freshStart _) fun _ => ?_
      refine .of_evalP (a := (some 5, 4, some 6)) (l := [2, 0, 0, 1, 1, 1, 1]) ?_ fun _ => (.pure ⟨rfl, _, rfl⟩)
      unfold lsqrFirstH lsqrWH
      dsimp only
      rw [if_pos ((gt_fin_zero 4).2 (by norm_num))]
      exact ⟨_, congrArg₂ _ rfl (heapOf_alloc _ _)⟩
    obtain ⟨s, h1, hi, rfl, p1, rfl⟩ := hi.to_eq
    refine .of_eval hi ?_
    have hst : SimE (heapOf p1 [2, 0, 0, 1, 1, 1, 1]) (lsqrStepH aliasOp aliasOp none (some freshPrecon) aliasKw 1 (.fin 2) freshState) (.ok ())
        (fun t _ h => t.x = 1 ∧ t.itn = 1 ∧ h.mem 1 = .fin (1/2)) := by
      unfold lsqrStepH
      refine simE_exc (a := 5) rfl ?_
      have hb : SimE (heapOf p1 [2, 0, 0, 1, 1, 1, 1]) (lsqrBidiagH aliasOp aliasOp none (some freshPrecon) aliasKw.damp freshState 5) (.ok ())
          (fun r _ h => r = (8, 4, 5, .fin 4, .fin 0, .fin 0, 2) ∧ ∃ p, h = heapOf p [2, 0, 0, 1, 1, 1, 1, 4, 0]) := by
        unfold lsqrBidiagH
        refine .of_evalP (freshStep _) fun _ => (.pure ⟨?_, _, rfl⟩)
        rw [if_neg (fun h => lt_irrefl _ ((gt_fin_zero 0).1 h))]
        change (8, 4, 5, Fl.fin 4, Fl.fin 0, (lit 0 : Fl), 2) = _
        simp
      obtain ⟨r, h', hb, rfl, p2, rfl⟩ := hb.to_eq
      refine .of_eval hb ?_
      have hn : normof2 (Fl.fin 4) (Fl.fin 0) = .fin 4 := by
        unfold normof2
        simp only [Fl.fin_mul, Fl.fin_add]
        exact sqrtf (by norm_num) (by norm_num)
      have r1 : lsqrRot1 (Fl.fin 0) (.fin 4) (.fin 2) = .ok (.fin 4, .fin 0, .fin 2) := by
        unfold lsqrRot1
        dsimp only
        rw [hn, pydivf (c := 1) (by norm_num) (by norm_num), pydivf (c := 0) (by norm_num) (by norm_num), ok_bind, ok_bind]
        simp only [Fl.fin_mul]
        norm_num
        rfl
      have r2 : lsqrRot2 (Fl.fin 4) (.fin 0) (.fin 4) (.fin 2) =
          .ok (.fin 4, .fin 0, .fin (-4), .fin 2, .fin 0, .fin 0, .fin (1/2), .fin 0) := by
        unfold lsqrRot2
        dsimp only
        rw [hn, pydivf (c := 1) (by norm_num) (by norm_num), pydivf (c := 0) (by norm_num) (by norm_num), ok_bind, ok_bind]
        simp only [Fl.fin_mul, Fl.fin_neg]
        rw [pydivf (c := 1/2) (by norm_num) (by norm_num), pydivf (c := 0) (by norm_num) (by norm_num), ok_bind, ok_bind]
        norm_num
        rfl
      refine simE_exc r1 (simE_exc r2 (simE_exc (a := .fin (1/4)) (pydivf (by norm_num) (by norm_num)) (simE_exc (a := 6) rfl ?_)))
      refine .rd (.new ?_)
      rw [heapOf_mem, Vec.fin_smul, heapOf_alloc]
      refine .rd (.rd (.wr ?_))
      change SimE ((heapOf _ [2, 0, 0, 1, 1, 1, 1, 4, 0, (1/4:ℝ) • (1:ℝ)]).upd 1 (Vec.fin 0 + smul (Fl.fin (1/2)) (Vec.fin 1)))
        (hrd 6 >>= _) _ _
      rw [Vec.fin_smul, Vec.fin_add, heapOf_upd _ _ (by simp)]
      change SimE (heapOf _ [2, 0 + (1/2:ℝ) • (1:ℝ), 0, 1, 1, 1, 1, 4, 0, (1/4:ℝ) • (1:ℝ)]) (hrd 6 >>= _) _ _
      rw [show 0 + (1/2:ℝ) • (1:ℝ) = 1/2 by norm_num, show (1/4:ℝ) • (1:ℝ) = 1/4 by norm_num]
      refine .rd (.wr ?_)
      rw [heapOf_mem, Vec.fin_smul, heapOf_upd _ _ (by simp)]
      refine .rd (.rd (.wr ?_))
      rw [heapOf_mem, heapOf_mem, Vec.fin_add, heapOf_upd _ _ (by simp)]
      refine .rd (.append ?_)
      rw [heapOf_mem]
      refine simE_exc (a := 1) rfl ?_
      have hx : lsqrXnormH (S := Fl) freshState (.fin 4) (.fin 0) (.fin 2) = .ok (.fin (1/2), .fin 1, .fin 0, .fin (1/2)) := by
        unfold lsqrXnormH
        dsimp only [freshState, aliasState]
        simp only [Fl.lit_eq, Fl.fin_mul, Fl.fin_neg, Fl.fin_sub]
        push_cast
        rw [show -(-1:ℝ) * 4 = 4 by norm_num, show (2:ℝ) - 0 * 4 * 0 = 2 by norm_num, hn, pydivf (c := 1/2) (by norm_num) (by norm_num),
          pydivf (c := 1) (by norm_num) (by norm_num), pydivf (c := 0) (by norm_num) (by norm_num)]
        simp only [ok_bind, Fl.fin_mul, Fl.fin_add]
        rw [sqrtf (a := 0 + 1/2 * (1/2)) (b := 1/2) (by norm_num) (by norm_num)]
        rfl
      refine simE_exc hx ?_
      dsimp only [freshState, aliasState]
      have hq := quantities_ok aliasKw rfl (decide (0 + 1 > aliasKw.window) && lt (normList ((List.replicate 5 (lit 0)).set 1 (Fl.fin 2)))
        (aliasKw.etol * sqrt (lit 0 + Fl.fin 2 * Fl.fin 2))) (bnorm := 2) (Anorm := 0) (Acond := 0 * (1/4)) (rnorm := 0)
        (Arnorm := 4 * 0) (xnorm := 1/2) (by norm_num) (by norm_num) (by norm_num)
      obtain ⟨t, hq⟩ := hq
      refine simE_exc (a := t) ?_ (.pure ⟨rfl, rfl, rfl⟩)
      rw [← hq]
      have q1 : ∀ (l : List ℝ) (k : Nat), l.getD k 2 = 1/4 →
          (lit 0 + norm (Vec.fin (l.getD k 2)) * norm (Vec.fin (l.getD k 2)) : Fl) = .fin (1/4 * (1/4)) := by
        intro l k hl
        rw [hl]
        simp
      congr 1
      · rw [q1 _ _ (by simp [heapOf]), sqrtf (b := 1/4) (by norm_num) rfl, Fl.fin_mul]
      · simp only [Fl.lit_eq, Fl.fin_mul, Fl.fin_add]
        exact sqrtf (by norm_num) (by norm_num)
      · simp
    obtain ⟨t, h2, hst, ht1, ht2, ht3⟩ := hst.to_eq
    refine .of_eval (a := t) (h' := h2) ?_ (.pure ?_)
    · have hm : lsqrMainH aliasOp aliasOp none (some freshPrecon) aliasKw 1 freshState =
          lsqrLoopH aliasOp aliasOp none (some freshPrecon) aliasKw 1 (.fin 2) freshState := by
        unfold lsqrMainH
        have : feq freshState.Arnorm (lit 0) = false := by
          change feq (Fl.fin 4 * Fl.fin 2) (lit 0) = false
          rw [Fl.fin_mul]
          exact feq_fin_false (by norm_num)
        rw [this]
        rfl
      change lsqrMainH aliasOp aliasOp none (some freshPrecon) aliasKw 1 freshState _ = _
      rw [hm]
      unfold lsqrLoopH
      rw [heapLoop_of_cont rfl hst, heapLoop_of_not]
      simp [lsqrContH, ht2]
    · change h2.mem t.x = _
      rw [ht1]
      exact ht3
  exact h.to_eq

end Verif.Solver
