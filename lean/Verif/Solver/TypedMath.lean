import Verif.Solver.Typed

/-!
# Lemmas about the solvers with dtypes
-/

set_option linter.unusedSectionVars false

namespace Verif.Solver
open Scalar Vect Linop

/-! ### Loops -/

/-- A loop whose body can raise follows a loop whose body cannot. -/
theorem exceptLoop_sim {σ τ ε : Type} {cont : σ → Bool} {step : σ → Except ε σ} {μ : σ → Nat}
    {h : ∀ s t, cont s = true → step s = .ok t → cont t = true → μ t < μ s}
    {cont' : τ → Bool} {step' : τ → τ} {μ' : τ → Nat}
    {h' : ∀ s, cont' s = true → cont' (step' s) = true → μ' (step' s) < μ' s}
    (R : σ → τ → Prop) (hcont : ∀ s t, R s t → cont s = cont' t)
    (hstep : ∀ s t, R s t → cont s = true → ∃ s', step s = .ok s' ∧ R s' (step' t)) (s : σ) (t : τ) (hs : R s t) :
    ∃ s', exceptLoop cont step μ h s = .ok s' ∧ R s' (whileLoop cont' step' μ' h' t) := by
  induction hm : (if cont' t then μ' t + 1 else 0) using Nat.strongRecOn generalizing s t with
  | ind m ih =>
    have hct := hcont s t hs
    rcases Bool.eq_false_or_eq_true (cont s) with hc | hc
    · have hc' : cont' t = true := hct ▸ hc
      obtain ⟨s', h1, h2⟩ := hstep s t hs hc
      rw [exceptLoop_of_cont hc h1, whileLoop_of_cont (s := t) hc']
      refine ih _ ?_ s' _ h2 rfl
      rw [← hm, if_pos hc']
      split
      · rename_i h''
        have := h' t hc' h''
        omega
      · omega
    · rw [exceptLoop_of_not hc, whileLoop_of_not (s := t) (hct ▸ hc)]
      exact ⟨s, rfl, hs⟩

variable {S V : Type} [Scalar S] [Vect S V]

/-- The loop of CG as an instance of `whileLoop`. -/
theorem cgLoop_eq (op : V → V) (precon : Option (V → V)) (kw : CGKw V) (threshold : S) (matvecMax : Nat)
    (h : ∀ s, cgCont threshold matvecMax s = true → cgCont threshold matvecMax (cgStep op precon kw s) = true →
      matvecMax - (cgStep op precon kw s).nMatvec < matvecMax - s.nMatvec) (s : CGLoop S V) :
    cgLoop op precon kw threshold matvecMax s =
      whileLoop (cgCont threshold matvecMax) (cgStep op precon kw) (fun s => matvecMax - s.nMatvec) h s := by
  induction hm : matvecMax - s.nMatvec using Nat.strongRecOn generalizing s with
  | ind m ih =>
    rw [cgLoop]
    rcases Bool.eq_false_or_eq_true (cgCont threshold matvecMax s) with hc | hc
    · rw [dif_pos hc, whileLoop_of_cont hc]
      refine ih _ ?_ _ rfl
      simp only [cgCont, Bool.and_eq_true, decide_eq_true_eq] at hc
      rw [cgStep_nMatvec]; omega
    · rw [dif_neg (by simp [hc]), whileLoop_of_not hc]

theorem cgDec (op : V → V) (precon : Option (V → V)) (kw : CGKw V) (threshold : S) (matvecMax : Nat) (s : CGLoop S V)
    (hc : cgCont threshold matvecMax s = true) (_ : cgCont threshold matvecMax (cgStep op precon kw s) = true) :
    matvecMax - (cgStep op precon kw s).nMatvec < matvecMax - s.nMatvec := by
  simp only [cgCont, Bool.and_eq_true, decide_eq_true_eq] at hc
  rw [cgStep_nMatvec]; omega

/-! ### Dtype classes -/

theorem fits_refl (a : DKind) : a.fits a := DKind.join_self a

theorem fits_join {a b c : DKind} : (a.join b).fits c ↔ a.fits c ∧ b.fits c := by
  cases a <;> cases b <;> cases c <;> decide

theorem fits_trans {a b c : DKind} (h1 : a.fits b) (h2 : b.fits c) : a.fits c := by
  revert h1 h2; cases a <;> cases b <;> cases c <;> decide

theorem fits_abs {a b : DKind} (h1 : a.fits b) : a.abs.fits b := by
  revert h1; cases a <;> cases b <;> decide

theorem real_fits {k : DKind} (h : k ≠ .int) : DKind.real.fits k := by
  revert h; cases k <;> decide

theorem int_fits (k : DKind) : DKind.int.fits k := by
  cases k <;> decide

theorem join_eq_int {a b : DKind} : a.join b = .int ↔ a = .int ∧ b = .int := by
  cases a <;> cases b <;> decide

theorem fits_left (a b : DKind) : a.fits (a.join b) := by
  cases a <;> cases b <;> decide

theorem fits_right (a b : DKind) : b.fits (a.join b) := by
  cases a <;> cases b <;> decide

/-! ### Values -/

variable [Casts S V]

@[simp] theorem TNum.add_val (a b : TNum S V) : (a + b).val = a.val + b.val := rfl
@[simp] theorem TNum.sub_val (a b : TNum S V) : (a - b).val = a.val - b.val := rfl
@[simp] theorem TNum.mul_val (a b : TNum S V) : (a * b).val = a.val * b.val := rfl
@[simp] theorem TNum.neg_val (a : TNum S V) : (-a).val = -a.val := rfl
@[simp] theorem TNum.sqrt_val (a : TNum S V) : (Scalar.sqrt a).val = Scalar.sqrt a.val := rfl
@[simp] theorem TNum.abs_val (a : TNum S V) : (Scalar.abs a).val = Scalar.abs a.val := rfl
@[simp] theorem TNum.lit_val (q : ℚ) : (Scalar.lit q : TNum S V).val = Scalar.lit q := rfl
@[simp] theorem TNum.le_val (a b : TNum S V) : Scalar.le a b = Scalar.le a.val b.val := rfl
@[simp] theorem TNum.lt_val (a b : TNum S V) : Scalar.lt a b = Scalar.lt a.val b.val := rfl
@[simp] theorem TNum.gt_val (a b : TNum S V) : Scalar.gt a b = Scalar.gt a.val b.val := rfl
@[simp] theorem TNum.pymax_val (a b : TNum S V) : (Scalar.pymax a b).val = Scalar.pymax a.val b.val := by
  unfold Scalar.pymax; simp only [TNum.lt_val]; split <;> rfl
theorem TNum.div_val {a b : TNum S V} (h : a.kind.join b.kind ≠ .int) : (a / b).val = a.val / b.val := if_neg h
theorem TNum.div_val_int {a b : TNum S V} (h : a.kind.join b.kind = .int) : (a / b).val = Casts.floorDiv V a.val b.val :=
  if_pos h

@[simp] theorem TNum.add_kind (a b : TNum S V) : (a + b).kind = a.kind.join b.kind := rfl
@[simp] theorem TNum.sub_kind (a b : TNum S V) : (a - b).kind = a.kind.join b.kind := rfl
@[simp] theorem TNum.mul_kind (a b : TNum S V) : (a * b).kind = a.kind.join b.kind := rfl
@[simp] theorem TNum.div_kind (a b : TNum S V) : (a / b).kind = a.kind.join b.kind := rfl
@[simp] theorem TNum.neg_kind (a : TNum S V) : (-a).kind = a.kind := rfl
@[simp] theorem TNum.sqrt_kind (a : TNum S V) : (Scalar.sqrt a).kind = a.kind.join .real := rfl
@[simp] theorem TNum.abs_kind (a : TNum S V) : (Scalar.abs a).kind = a.kind.abs := rfl
@[simp] theorem TNum.lit_kind (q : ℚ) : (Scalar.lit q : TNum S V).kind = .real := rfl

@[simp] theorem TArr.add_val (u v : TArr V) : (u + v).val = u.val + v.val := rfl
@[simp] theorem TArr.sub_val (u v : TArr V) : (u - v).val = u.val - v.val := rfl
@[simp] theorem TArr.neg_val (u : TArr V) : (-u).val = -u.val := rfl
@[simp] theorem TArr.smul_val (a : TNum S V) (u : TArr V) : (smul a u).val = smul a.val u.val := rfl
@[simp] theorem TArr.dot_val (u v : TArr V) : (dot u v : TNum S V).val = dot u.val v.val := rfl
@[simp] theorem TArr.norm_val (u : TArr V) : (norm u : TNum S V).val = norm u.val := rfl
@[simp] theorem TArr.zeros_val : (zeros : TArr V).val = zeros := rfl

@[simp] theorem TArr.add_kind (u v : TArr V) : (u + v).kind = u.kind.join v.kind := rfl
@[simp] theorem TArr.sub_kind (u v : TArr V) : (u - v).kind = u.kind.join v.kind := rfl
@[simp] theorem TArr.neg_kind (u : TArr V) : (-u).kind = u.kind := rfl
@[simp] theorem TArr.smul_kind (a : TNum S V) (u : TArr V) : (smul a u).kind = a.kind.join u.kind := rfl
@[simp] theorem TArr.dot_kind (u v : TArr V) : (dot u v : TNum S V).kind = u.kind.join v.kind := rfl
@[simp] theorem TArr.norm_kind (u : TArr V) : (norm u : TNum S V).kind = .real := rfl

@[simp] theorem TOp.mul_val (op : TOp V) (x : TArr V) : (op.mul x).val = op.fn x.val := rfl
@[simp] theorem TOp.mul_kind (op : TOp V) (x : TArr V) : (op.mul x).kind = op.dtype.join x.kind := rfl
@[simp] theorem TArr.astype_kind (k : DKind) (x : TArr V) : (TArr.astype S k x).kind = k := rfl

theorem iadd_ok {u v : TArr V} (h : v.kind.fits u.kind) : iadd u v = .ok ⟨u.kind, u.val + v.val⟩ := if_pos h
theorem isub_ok {u v : TArr V} (h : v.kind.fits u.kind) : isub u v = .ok ⟨u.kind, u.val - v.val⟩ := if_pos h
theorem imul_ok {u : TArr V} {a : TNum S V} (h : a.kind.fits u.kind) : imul u a = .ok ⟨u.kind, smul a.val u.val⟩ := if_pos h
theorem iadd_error {u v : TArr V} (h : ¬ v.kind.fits u.kind) : iadd u v = .error .typeError := if_neg h
theorem isub_error {u v : TArr V} (h : ¬ v.kind.fits u.kind) : isub u v = .error .typeError := if_neg h
theorem imul_error {u : TArr V} {a : TNum S V} (h : ¬ a.kind.fits u.kind) : imul u a = .error .typeError := if_neg h

/-- the type of the preconditioner, if there is one -/
def preKind (p : Option (TOp V)) : DKind :=
  match p with
  | some M => M.dtype
  | none => .int

@[simp] theorem applyPreconT_kind (p : Option (TOp V)) (r : TArr V) : (applyPreconT p r).kind = (preKind p).join r.kind := by
  cases p with
  | none => change r.kind = _; cases h : r.kind <;> rfl
  | some M => rfl

@[simp] theorem applyPreconT_val (p : Option (TOp V)) (r : TArr V) :
    (applyPreconT p r).val = applyPrecon (p.map TOp.fn) r.val := by
  cases p <;> rfl

/-! ### Forgetting the types -/

def CGLoop.vals (s : CGLoop (TNum S V) (TArr V)) : CGLoop S V where
  x := s.x.val
  r := s.r.val
  p := s.p.val
  ry := s.ry.val
  residNorm := s.residNorm.val
  nMatvec := s.nMatvec
  definite := s.definite
  infiniteDescent := s.infiniteDescent.map TArr.val
  residHistory := s.residHistory.map TNum.val
  resids := s.resids.map TArr.val
  iterates := s.iterates.map TArr.val
  calls := s.calls.map TArr.val

/-- the values of the attributes of a solver object -/
def CGObj.vals (s : CGObj (TNum S V) (TArr V)) : CGObj S V where
  residHistory := s.residHistory.map TNum.val
  resids := s.resids.map TArr.val
  iterates := s.iterates.map TArr.val
  infiniteDescent := s.infiniteDescent.map TArr.val
  converged := s.converged
  definite := s.definite
  nMatvec := s.nMatvec
  x := s.x.map TArr.val
  residNorm := s.residNorm.map TNum.val
  residNorm0 := s.residNorm0.map TNum.val

variable (S) in
/-- the keywords of a call, where the guess is converted to the type `k` -/
def CGKw.vals (k : DKind) (kw : CGKw (TArr V)) : CGKw V where
  guess := kw.guess.map fun g => (TArr.astype S k g).val
  matvecMax := kw.matvecMax
  checkSymmetric := kw.checkSymmetric
  symOK := kw.symOK
  checkCurvature := kw.checkCurvature
  storeResids := kw.storeResids
  storeIterates := kw.storeIterates

def TOpts.vals (o : TOpts S V) : KrylovOpts S V := ⟨o.abstol, o.reltol, o.precon.map TOp.fn⟩

/-! ### CG -/

theorem notPositive_val (a : TNum S V) : notPositive a = notPositive a.val := rfl

/-- the types in a run of CG whose arrays all have type `k` -/
structure CGKinds (k : DKind) (s : CGLoop (TNum S V) (TArr V)) : Prop where
  x : s.x.kind = k
  r : s.r.kind = k
  p : s.p.kind = k
  ry : s.ry.kind = k

theorem cgStepT_ok {op : TOp V} {precon : Option (TOp V)} {kw : CGKw (TArr V)} {k D : DKind} (hk : k ≠ .int)
    (hA : op.dtype.fits k) (hP : (preKind precon).fits k) {s : CGLoop (TNum S V) (TArr V)} (hs : CGKinds k s) :
    ∃ s', cgStepT op precon kw s = .ok s' ∧ CGKinds k s' ∧
      s'.vals = cgStep op.fn (precon.map TOp.fn) (CGKw.vals S D kw) s.vals := by
  have hA' : op.dtype.join k = k := hA
  have hP' : (preKind precon).join k = k := hP
  unfold cgStepT
  simp only
  split
  · rename_i hc
    refine ⟨_, rfl, ⟨hs.x, hs.r, hs.p, hs.ry⟩, ?_⟩
    unfold cgStep
    simp only
    rw [if_pos (by exact hc)]
    simp [CGLoop.vals]
  · rename_i hc
    have e1 : (s.ry / dot s.p (op.mul s.p) : TNum S V).kind = k := by
      simp [hs.p, hs.ry, hA', DKind.join_self]
    have e2 : (s.ry / dot s.p (op.mul s.p) : TNum S V).val = s.ry.val / dot s.p.val (op.fn s.p.val) :=
      TNum.div_val (by rw [← TNum.div_kind, e1]; exact hk)
    generalize (s.ry / dot s.p (op.mul s.p) : TNum S V) = alpha at *
    rw [iadd_ok (by rw [TArr.smul_kind, e1, hs.p, hs.x, DKind.join_self]; exact fits_refl k),
      except_bind_ok' rfl,
      iadd_ok (by rw [TArr.smul_kind, e1, TOp.mul_kind, hs.p, hs.r, hA', DKind.join_self]; exact fits_refl k),
      except_bind_ok' rfl]
    generalize hr : (⟨s.r.kind, s.r.val + (smul alpha (op.mul s.p)).val⟩ : TArr V) = r
    have r1 : r.kind = k := by rw [← hr]; exact hs.r
    have r2 : r.val = s.r.val + smul (s.ry.val / dot s.p.val (op.fn s.p.val)) (op.fn s.p.val) := by
      rw [← hr]; simp [e2]
    have b1 : (dot r (applyPreconT precon r) / s.ry : TNum S V).kind = k := by
      simp [r1, hs.ry, hP', DKind.join_self]
    have b2 : (dot r (applyPreconT precon r) / s.ry : TNum S V).val =
        dot r.val (applyPrecon (precon.map TOp.fn) r.val) / s.ry.val := by
      rw [TNum.div_val (by rw [← TNum.div_kind, b1]; exact hk)]; simp
    generalize (dot r (applyPreconT precon r) / s.ry : TNum S V) = beta at *
    rw [imul_ok (by rw [b1, hs.p]; exact fits_refl k), except_bind_ok' rfl,
      isub_ok (by change r.kind.fits s.p.kind; rw [r1, hs.p]; exact fits_refl k), except_bind_ok' rfl]
    refine ⟨_, rfl, ⟨hs.x, r1, hs.p, ?_⟩, ?_⟩
    · simp [r1, hP', DKind.join_self]
    · have hc' : ((CGKw.vals S D kw).checkCurvature && notPositive (dot s.vals.p (op.fn s.vals.p))) = false :=
        Bool.eq_false_iff.mpr hc
      unfold cgStep
      simp only [hc', Bool.false_eq_true, if_false]
      simp only [CGLoop.vals, CGKw.vals, TArr.smul_val, e2, r2, b2, TNum.abs_val, TNum.sqrt_val, TArr.dot_val,
        applyPreconT_val, List.map_append, List.map_cons, List.map_nil]
      congr 1
      · change List.map _ (if kw.storeResids = true then _ else _) = if kw.storeResids = true then _ else _
        split <;> simp [r2]
      · change List.map _ (if kw.storeIterates = true then _ else _) = if kw.storeIterates = true then _ else _
        split <;> simp

theorem cgLoopT_ok {op : TOp V} {precon : Option (TOp V)} {kw : CGKw (TArr V)} {k D : DKind} (hk : k ≠ .int)
    (hA : op.dtype.fits k) (hP : (preKind precon).fits k) {threshold : TNum S V} {matvecMax : Nat}
    {s : CGLoop (TNum S V) (TArr V)} (hs : CGKinds k s) :
    ∃ s', cgLoopT op precon kw threshold matvecMax s = .ok s' ∧ CGKinds k s' ∧
      s'.vals = cgLoop op.fn (precon.map TOp.fn) (CGKw.vals S D kw) threshold.val matvecMax s.vals := by
  rw [cgLoop_eq _ _ _ _ _ (cgDec _ _ _ _ _)]
  exact exceptLoop_sim (fun s t => CGKinds k s ∧ s.vals = t)
    (fun s t h => by rw [← h.2]; rfl)
    (fun s t h _ => by
      obtain ⟨s', h1, h2, h3⟩ := cgStepT_ok (D := D) (kw := kw) hk hA hP h.1
      exact ⟨s', h1, h2, by rw [h3, h.2]⟩) s _ ⟨hs, rfl⟩

theorem astype_zeros (k : DKind) : (TArr.astype S k (zeros : TArr V)).val = zeros := by
  unfold TArr.astype
  simp only
  split
  · rfl
  · exact Casts.trunc_zeros k

theorem cgInitT_ok {op : TOp V} {o : TOpts S V} {kw : CGKw (TArr V)} {self : CGObj (TNum S V) (TArr V)} {rhs : TArr V}
    (hg : kw.guess = none ∨ op.dtype.fits rhs.kind) :
    ∃ s0 thr, cgInitT op o kw self rhs = .ok (s0, thr) ∧
      cgInit op.fn o.vals (CGKw.vals S (op.dtype.join rhs.kind) kw) self.vals rhs.val = (s0.vals, thr.val) ∧
      s0.x.kind = op.dtype.join rhs.kind ∧ s0.r.kind = rhs.kind ∧ s0.p.kind = rhs.kind ∧
      s0.ry.kind = rhs.kind.join ((preKind o.precon).join rhs.kind) := by
  unfold cgInitT
  cases hgu : kw.guess with
  | none =>
    simp only [Option.getD_none]
    refine ⟨_, _, rfl, ?_, rfl, rfl, rfl, by simp⟩
    unfold cgInit
    simp only [CGKw.vals, hgu, Option.map_none, Option.getD_none, CGLoop.vals, CGObj.vals, TOpts.vals]
    have e1 : (if kw.storeResids = true then self.resids ++ [applyPreconT o.precon (-rhs)] else self.resids).map TArr.val =
        if kw.storeResids = true then self.resids.map TArr.val ++ [applyPrecon (o.precon.map TOp.fn) (-rhs.val)]
        else self.resids.map TArr.val := by split <;> simp
    have e2 : (if kw.storeIterates = true then self.iterates ++ [TArr.astype S (op.dtype.join rhs.kind) (zeros : TArr V)]
          else self.iterates).map TArr.val =
        if kw.storeIterates = true then self.iterates.map TArr.val ++ [zeros] else self.iterates.map TArr.val := by
      split <;> simp [astype_zeros]
    rw [e1, e2]
    simp [astype_zeros]
  | some g =>
    have hA : op.dtype.fits rhs.kind := by simpa [hgu] using hg
    have hf : (op.mul (TArr.astype S (op.dtype.join rhs.kind) g)).kind.fits (-rhs).kind := by
      rw [TOp.mul_kind, TArr.astype_kind, fits_join, fits_join]
      exact ⟨hA, hA, fits_refl _⟩
    simp only [Option.getD_some]
    rw [iadd_ok hf, except_bind_ok' rfl]
    refine ⟨_, _, rfl, ?_, rfl, rfl, rfl, by simp⟩
    unfold cgInit
    simp only [CGKw.vals, hgu, Option.map_some, Option.getD_some, CGLoop.vals, CGObj.vals, TOpts.vals]
    generalize hr : (⟨(-rhs).kind, (-rhs).val + (op.mul (TArr.astype S (op.dtype.join rhs.kind) g)).val⟩ : TArr V) = r
    have hrv : r.val = -rhs.val + op.fn (TArr.astype S (op.dtype.join rhs.kind) g).val := by rw [← hr]; rfl
    have e1 : (if kw.storeResids = true then self.resids ++ [applyPreconT o.precon r] else self.resids).map TArr.val =
        if kw.storeResids = true then self.resids.map TArr.val ++ [applyPrecon (o.precon.map TOp.fn) r.val]
        else self.resids.map TArr.val := by split <;> simp
    have e2 : (if kw.storeIterates = true then self.iterates ++ [TArr.astype S (op.dtype.join rhs.kind) g]
          else self.iterates).map TArr.val =
        if kw.storeIterates = true then self.iterates.map TArr.val ++ [(TArr.astype S (op.dtype.join rhs.kind) g).val]
        else self.iterates.map TArr.val := by
      split <;> simp
    rw [e1, e2, hrv]
    simp [hrv]

theorem cgInitT_error {op : TOp V} {o : TOpts S V} {kw : CGKw (TArr V)} {self : CGObj (TNum S V) (TArr V)} {rhs : TArr V}
    (hg : kw.guess ≠ none) (hA : ¬ op.dtype.fits rhs.kind) : cgInitT op o kw self rhs = .error .typeError := by
  unfold cgInitT
  cases hgu : kw.guess with
  | none => exact absurd hgu hg
  | some g =>
    have hf : ¬ (op.mul (TArr.astype S (op.dtype.join rhs.kind) g)).kind.fits (-rhs).kind := by
      rw [TOp.mul_kind, TArr.astype_kind, fits_join]
      exact fun h => hA h.1
    simp only [Option.getD_some]
    rw [iadd_error hf]
    rfl

/-- The first update raises if the operator or the preconditioner has a wider type than the right-hand side. -/
theorem cgStepT_error {op : TOp V} {precon : Option (TOp V)} {kw : CGKw (TArr V)} {k : DKind}
    (hAP : ¬ (op.dtype.fits k ∧ (preKind precon).fits k)) {s : CGLoop (TNum S V) (TArr V)}
    (hr : s.r.kind = k) (hry : s.ry.kind = k.join ((preKind precon).join k))
    (hc : ¬ (kw.checkCurvature && notPositive (dot s.p (op.mul s.p))) = true) :
    cgStepT op precon kw s = .error .typeError := by
  unfold cgStepT
  simp only
  rw [if_neg hc]
  unfold iadd
  by_cases h1 : (smul (s.ry / dot s.p (op.mul s.p)) s.p).kind.fits s.x.kind
  · rw [if_pos h1, except_bind_ok' rfl, if_neg]
    · rfl
    · rw [TArr.smul_kind, TNum.div_kind, hry, hr, TOp.mul_kind]
      simp only [fits_join]
      tauto
  · rw [if_neg h1]; rfl

theorem cgLoop_history (op : V → V) (precon : Option (V → V)) (kw : CGKw V) (threshold : S) (matvecMax : Nat)
    (s : CGLoop S V) : s.residHistory.length ≤ (cgLoop op precon kw threshold matvecMax s).residHistory.length := by
  rw [cgLoop_eq _ _ _ _ _ (cgDec _ _ _ _ _)]
  refine (whileLoop_inv (fun t => s.residHistory.length ≤ t.residHistory.length) (fun t ht _ => ?_) s le_rfl).1
  unfold cgStep
  simp only
  split
  · exact ht
  · simp only [List.length_append, List.length_cons, List.length_nil]; omega

/-! ### CGS -/

def CGSLoop.vals (s : CGSLoop (TNum S V) (TArr V)) : CGSLoop S V where
  x := s.x.val
  r := s.r.val
  u := s.u.val
  p := s.p.val
  rho := s.rho.val
  residNorm := s.residNorm.val
  nMatvec := s.nMatvec
  finished := s.finished
  calls := s.calls.map TArr.val

/-- the values of what a solve returns -/
def KrylovRes.vals (r : KrylovRes (TNum S V) (TArr V)) : KrylovRes S V where
  residNorm0 := r.residNorm0.val
  converged := r.converged
  nMatvec := r.nMatvec
  x := r.x.val
  residNorm := r.residNorm.val

variable (S) in
/-- the keywords of a call, where the guess is converted to the type `k` -/
def KrylovKw.vals (k : DKind) (kw : KrylovKw (TArr V)) : KrylovKw V where
  guess := kw.guess.map fun g => (TArr.astype S k g).val
  matvecMax := kw.matvecMax

structure CGSKinds (k : DKind) (s : CGSLoop (TNum S V) (TArr V)) : Prop where
  x : s.x.kind = k
  r : s.r.kind = k
  u : s.u.kind = k
  p : s.p.kind = k
  rho : s.rho.kind = k

theorem cgsStepT_ok {op : TOp V} {precon : Option (TOp V)} {threshold : TNum S V} {matvecMax : Nat} {r0 : TArr V}
    {k : DKind} (hk : k ≠ .int) (hA : op.dtype.fits k) (hP : (preKind precon).fits k) (h0 : r0.kind = k)
    {s : CGSLoop (TNum S V) (TArr V)} (hs : CGSKinds k s) :
    ∃ s', cgsStepT op precon threshold matvecMax r0 s = .ok s' ∧ CGSKinds k s' ∧
      s'.vals = cgsStep op.fn (precon.map TOp.fn) threshold.val matvecMax r0.val s.vals := by
  have hA' : op.dtype.join k = k := hA
  have hP' : (preKind precon).join k = k := hP
  unfold cgsStepT
  simp only
  generalize ha : (s.rho / dot r0 (op.mul (applyPreconT precon s.p)) : TNum S V) = alpha
  have a1 : alpha.kind = k := by rw [← ha]; simp [hs.rho, h0, hA', hP', hs.p, DKind.join_self]
  have a2 : alpha.val = s.rho.val / dot r0.val (op.fn (applyPrecon (precon.map TOp.fn) s.p.val)) := by
    rw [← ha, TNum.div_val (by rw [← TNum.div_kind, ha, a1]; exact hk)]; simp
  generalize hq : s.u - smul alpha (op.mul (applyPreconT precon s.p)) = q
  have q1 : q.kind = k := by rw [← hq]; simp [a1, hs.u, hA', hP', hs.p, DKind.join_self]
  have q2 : q.val = s.u.val - smul alpha.val (op.fn (applyPrecon (precon.map TOp.fn) s.p.val)) := by rw [← hq]; simp
  generalize hz : applyPreconT precon (s.u + q) = z
  have z1 : z.kind = k := by rw [← hz]; simp [q1, hs.u, hP', DKind.join_self]
  have z2 : z.val = applyPrecon (precon.map TOp.fn) (s.u.val + q.val) := by rw [← hz]; simp
  rw [iadd_ok (by rw [TArr.smul_kind, a1, z1, hs.x, DKind.join_self]; exact fits_refl k), except_bind_ok' rfl,
    isub_ok (by rw [TArr.smul_kind, a1, TOp.mul_kind, z1, hs.r, hA', DKind.join_self]; exact fits_refl k),
    except_bind_ok' rfl]
  generalize hr : (⟨s.r.kind, s.r.val - (smul alpha (op.mul z)).val⟩ : TArr V) = r
  have r1 : r.kind = k := by rw [← hr]; exact hs.r
  have r2 : r.val = s.r.val - smul alpha.val (op.fn z.val) := by rw [← hr]; simp
  unfold cgsStep
  simp only [TNum.le_val, TArr.norm_val, CGSLoop.vals, ← a2, ← q2, ← z2, ← r2]
  split
  · rename_i hc
    refine ⟨_, rfl, ⟨hs.x, r1, hs.u, hs.p, hs.rho⟩, ?_⟩
    simp [z2]
    simp only [ge_iff_le, Bool.or_eq_true, decide_eq_true_eq] at hc
    intro h
    rcases hc with hc | hc
    · rw [hc] at h; cases h
    · exact hc
  · rename_i hc
    generalize hb : (dot r0 r / s.rho : TNum S V) = beta
    have b1 : beta.kind = k := by rw [← hb]; simp [r1, h0, hs.rho, DKind.join_self]
    have b2 : beta.val = dot r0.val r.val / s.rho.val := by
      rw [← hb, TNum.div_val (by rw [← TNum.div_kind, hb, b1]; exact hk)]; simp
    rw [imul_ok (by rw [b1, hs.p]; exact fits_refl k), except_bind_ok' rfl,
      iadd_ok (by change q.kind.fits s.p.kind; rw [q1, hs.p]; exact fits_refl k), except_bind_ok' rfl,
      imul_ok (by change beta.kind.fits s.p.kind; rw [b1, hs.p]; exact fits_refl k), except_bind_ok' rfl,
      iadd_ok (by
        change (r + smul beta q).kind.fits s.p.kind
        simp only [TArr.add_kind, TArr.smul_kind, r1, b1, q1, hs.p, DKind.join_self]; exact fits_refl k), except_bind_ok' rfl]
    refine ⟨_, rfl, ⟨hs.x, r1, by simp [r1, b1, q1, DKind.join_self], hs.p, by simp [h0, r1, DKind.join_self]⟩, ?_⟩
    simp [z2, b2]
    simpa using hc

theorem cgsStepT_error {op : TOp V} {precon : Option (TOp V)} {threshold : TNum S V} {matvecMax : Nat} {r0 : TArr V}
    {k : DKind} (hAP : ¬ (op.dtype.fits k ∧ (preKind precon).fits k)) {s : CGSLoop (TNum S V) (TArr V)} (hr : s.r.kind = k) :
    cgsStepT op precon threshold matvecMax r0 s = .error .typeError := by
  unfold cgsStepT
  simp only
  unfold iadd isub
  split
  · rw [except_bind_ok' rfl, if_neg]
    · rfl
    · simp only [TArr.smul_kind, TNum.div_kind, hr, TOp.mul_kind, TArr.dot_kind, applyPreconT_kind, fits_join]
      tauto
  · rfl

/-! ### TFQMR -/

def TFLoop.vals (s : TFLoop (TNum S V) (TArr V)) : TFLoop S V where
  x := s.x.val
  y := s.y.val
  w := s.w.val
  d := s.d.val
  z := s.z.val
  u := s.u.val
  v := s.v.val
  rho := s.rho.val
  theta := s.theta.val
  eta := s.eta.val
  residNorm := s.residNorm.val
  k := s.k
  m := s.m.map TNum.val
  nMatvec := s.nMatvec
  finished := s.finished
  calls := s.calls.map TArr.val

structure TFKinds (k : DKind) (s : TFLoop (TNum S V) (TArr V)) : Prop where
  x : s.x.kind = k
  y : s.y.kind = k
  w : s.w.kind = k
  d : s.d.kind = k
  z : s.z.kind = k
  u : s.u.kind = k
  v : s.v.kind = k
  rho : s.rho.kind = k
  theta : s.theta.kind = .real
  eta : s.eta.kind.fits k
  residNorm : s.residNorm.kind = .real

theorem tfPassT_ok {alpha : TNum S V} {k : DKind} (hk : k ≠ .int) (ha : alpha.kind = k)
    {s : TFLoop (TNum S V) (TArr V)} (hs : TFKinds k s) :
    ∃ s', tfPassT alpha s = .ok s' ∧ TFKinds k s' ∧ s'.vals = tfPass alpha.val s.vals := by
  have hre : DKind.real.join k = k := real_fits hk
  have hek : s.eta.kind.join k = k := hs.eta
  unfold tfPassT
  simp only
  rw [isub_ok (by rw [TArr.smul_kind, ha, hs.u, hs.w, DKind.join_self]; exact fits_refl k), except_bind_ok' rfl]
  generalize hc : (s.theta * s.theta * s.eta / alpha : TNum S V) = c
  have c1 : c.kind = k := by
    rw [← hc]; simp only [TNum.div_kind, TNum.mul_kind, hs.theta, ha, DKind.join_assoc, hek, hre]
  have c2 : c.val = s.theta.val * s.theta.val * s.eta.val / alpha.val := by
    rw [← hc, TNum.div_val (by rw [← TNum.div_kind, hc, c1]; exact hk)]; simp
  rw [imul_ok (by rw [c1, hs.d]; exact fits_refl k), except_bind_ok' rfl,
    iadd_ok (by change s.z.kind.fits s.d.kind; rw [hs.z, hs.d]; exact fits_refl k), except_bind_ok' rfl]
  generalize hw : (⟨s.w.kind, s.w.val - (smul alpha s.u).val⟩ : TArr V) = w
  have w1 : w.kind = k := by rw [← hw]; exact hs.w
  have w2 : w.val = s.w.val - smul alpha.val s.u.val := by rw [← hw]; simp
  generalize ht : (norm w / s.residNorm : TNum S V) = theta
  have t1 : theta.kind = .real := by rw [← ht]; simp [hs.residNorm]; rfl
  have t2 : theta.val = norm w.val / s.residNorm.val := by
    rw [← ht, TNum.div_val (by rw [← TNum.div_kind, ht, t1]; simp)]; simp
  generalize he : (lit 1 / Scalar.sqrt (lit 1 + theta * theta) : TNum S V) = cc
  have e1 : cc.kind = .real := by rw [← he]; simp only [TNum.div_kind, TNum.sqrt_kind, TNum.add_kind, TNum.mul_kind, TNum.lit_kind, t1]; rfl
  have e2 : cc.val = lit 1 / Scalar.sqrt (lit 1 + theta.val * theta.val) := by
    rw [← he, TNum.div_val (by rw [← TNum.div_kind, he, e1]; simp)]; simp
  have ek : (cc * cc * alpha : TNum S V).kind = k := by
    simp only [TNum.mul_kind, e1, ha]; exact hre
  rw [iadd_ok (by
    change (cc * cc * alpha : TNum S V).kind.join s.d.kind |>.fits s.x.kind
    rw [ek, hs.d, hs.x, DKind.join_self]; exact fits_refl k), except_bind_ok' rfl]
  refine ⟨_, rfl, ⟨hs.x, hs.y, w1, hs.d, hs.z, hs.u, hs.v, hs.rho, t1, by rw [ek]; exact fits_refl k, ?_⟩, ?_⟩
  · simp only [TNum.mul_kind, hs.residNorm, t1, e1]; rfl
  · unfold tfPass
    simp only [TFLoop.vals, TNum.mul_val, TArr.smul_val, ← w2, ← c2, ← t2, ← e2]

theorem tfMidT_ok {op : TOp V} {precon : Option (TOp V)} {alpha m : TNum S V} {k : DKind} (hA : op.dtype.fits k)
    (hP : (preKind precon).fits k) (ha : alpha.kind = k) {s : TFLoop (TNum S V) (TArr V)} (hs : TFKinds k s) :
    ∃ s', tfMidT op precon alpha m s = .ok s' ∧ TFKinds k s' ∧
      s'.vals = tfMid op.fn (precon.map TOp.fn) alpha.val m.val s.vals := by
  have hA' : op.dtype.join k = k := hA
  have hP' : (preKind precon).join k = k := hP
  unfold tfMidT
  simp only
  rw [isub_ok (by rw [TArr.smul_kind, ha, hs.v, hs.y, DKind.join_self]; exact fits_refl k), except_bind_ok' rfl]
  refine ⟨_, rfl, ⟨hs.x, hs.y, hs.w, hs.d, ?_, ?_, hs.v, hs.rho, hs.theta, hs.eta, hs.residNorm⟩, ?_⟩
  · simp [hs.y, hP']
  · simp [hs.y, hP', hA']
  · simp [TFLoop.vals, tfMid]

theorem tfFinalT_ok {op : TOp V} {precon : Option (TOp V)} {r0 : TArr V} {k : DKind} (hk : k ≠ .int) (hA : op.dtype.fits k)
    (hP : (preKind precon).fits k) (h0 : r0.kind = k) {s : TFLoop (TNum S V) (TArr V)} (hs : TFKinds k s) :
    ∃ s', tfFinalT op precon r0 s = .ok s' ∧ TFKinds k s' ∧ s'.vals = tfFinal op.fn (precon.map TOp.fn) r0.val s.vals := by
  have hA' : op.dtype.join k = k := hA
  have hP' : (preKind precon).join k = k := hP
  unfold tfFinalT
  simp only
  generalize hb : (dot r0 s.w / s.rho : TNum S V) = beta
  have b1 : beta.kind = k := by rw [← hb]; simp [hs.w, h0, hs.rho, DKind.join_self]
  have b2 : beta.val = dot r0.val s.w.val / s.rho.val := by
    rw [← hb, TNum.div_val (by rw [← TNum.div_kind, hb, b1]; exact hk)]; simp
  rw [imul_ok (by rw [b1, hs.y]; exact fits_refl k), except_bind_ok' rfl,
    iadd_ok (by change s.w.kind.fits s.y.kind; rw [hs.w, hs.y]; exact fits_refl k), except_bind_ok' rfl,
    imul_ok (by rw [b1, hs.v]; exact fits_refl k), except_bind_ok' rfl,
    iadd_ok (by change s.u.kind.fits s.v.kind; rw [hs.u, hs.v]; exact fits_refl k), except_bind_ok' rfl,
    imul_ok (by change beta.kind.fits s.v.kind; rw [b1, hs.v]; exact fits_refl k), except_bind_ok' rfl,
    iadd_ok (by
      simp only [TOp.mul_kind, applyPreconT_kind, hs.y, hs.v, hP', hA']; exact fits_refl k), except_bind_ok' rfl]
  refine ⟨_, rfl, ⟨hs.x, hs.y, hs.w, hs.d, ?_, ?_, hs.v, ?_, hs.theta, hs.eta, hs.residNorm⟩, ?_⟩
  · simp [hs.y, hP']
  · simp [hs.y, hP', hA']
  · simp [h0, hs.w, DKind.join_self]
  · simp [TFLoop.vals, tfFinal, b2]

theorem tfTest_val (threshold m : TNum S V) (matvecMax : Nat) (s : TFLoop (TNum S V) (TArr V)) :
    tfTest threshold matvecMax m s = tfTest threshold.val matvecMax m.val s.vals := rfl

theorem tfStepT_ok {op : TOp V} {precon : Option (TOp V)} {threshold : TNum S V} {matvecMax : Nat} {r0 : TArr V}
    {k : DKind} (hk : k ≠ .int) (hA : op.dtype.fits k) (hP : (preKind precon).fits k) (h0 : r0.kind = k)
    {s : TFLoop (TNum S V) (TArr V)} (hs : TFKinds k s) :
    ∃ s', tfStepT op precon threshold matvecMax r0 s = .ok s' ∧ TFKinds k s' ∧
      s'.vals = tfStep op.fn (precon.map TOp.fn) threshold.val matvecMax r0.val s.vals := by
  unfold tfStepT
  simp only
  generalize ha : (s.rho / dot r0 s.v : TNum S V) = alpha
  have a1 : alpha.kind = k := by rw [← ha]; simp [hs.rho, h0, hs.v, DKind.join_self]
  have a2 : alpha.val = s.rho.val / dot r0.val s.v.val := by
    rw [← ha, TNum.div_val (by rw [← TNum.div_kind, ha, a1]; exact hk)]; simp
  obtain ⟨s1, h1, k1, v1⟩ := tfPassT_ok hk a1 hs
  rw [h1, except_bind_ok' rfl]
  generalize hm : (lit 2 * lit ((s.k + 1 : Nat) : ℚ) - lit 1 : TNum S V) = m
  have m2 : m.val = lit 2 * lit ((s.k + 1 : Nat) : ℚ) - lit 1 := by rw [← hm]; rfl
  generalize hs1 : ({ s1 with k := s.k + 1, m := some m } : TFLoop (TNum S V) (TArr V)) = s1'
  have k1' : TFKinds k s1' := by
    rw [← hs1]; exact ⟨k1.x, k1.y, k1.w, k1.d, k1.z, k1.u, k1.v, k1.rho, k1.theta, k1.eta, k1.residNorm⟩
  have v1' : s1'.vals = { tfPass alpha.val s.vals with k := s.vals.k + 1, m := some m.val } := by
    rw [← hs1, ← v1]; rfl
  have E : tfStep op.fn (precon.map TOp.fn) threshold.val matvecMax r0.val s.vals =
      (if tfTest threshold.val matvecMax m.val s1'.vals then { s1'.vals with finished := true }
      else
        let s2 := tfPass alpha.val (tfMid op.fn (precon.map TOp.fn) alpha.val (m.val + lit 1) s1'.vals)
        if tfTest threshold.val matvecMax (m.val + lit 1) s2 then { s2 with finished := true }
        else tfFinal op.fn (precon.map TOp.fn) r0.val s2) := by
    unfold tfStep
    rw [v1', a2, m2]
    rfl
  rw [E, tfTest_val]
  by_cases c1 : tfTest threshold.val matvecMax m.val s1'.vals = true
  · rw [if_pos c1, if_pos c1]
    refine ⟨_, rfl, ⟨k1.x, k1.y, k1.w, k1.d, k1.z, k1.u, k1.v, k1.rho, k1.theta, k1.eta, k1.residNorm⟩, ?_⟩
    rw [← hs1]; rfl
  · rw [if_neg c1, if_neg c1]
    obtain ⟨s2, h2, k2, v2⟩ := tfMidT_ok (m := m + lit 1) hA hP a1 k1'
    obtain ⟨s3, h3, k3, v3⟩ := tfPassT_ok hk a1 k2
    have v3' : tfPass alpha.val (tfMid op.fn (precon.map TOp.fn) alpha.val (m.val + lit 1) s1'.vals) = s3.vals := by
      rw [v3, v2]; rfl
    rw [h2, except_bind_ok' rfl, h3, except_bind_ok' rfl, tfTest_val, v3']
    by_cases c2 : tfTest threshold.val matvecMax (m + lit 1).val s3.vals = true
    · rw [if_pos c2]
      simp only
      rw [if_pos (by exact c2)]
      exact ⟨_, rfl, ⟨k3.x, k3.y, k3.w, k3.d, k3.z, k3.u, k3.v, k3.rho, k3.theta, k3.eta, k3.residNorm⟩, rfl⟩
    · rw [if_neg c2]
      simp only
      rw [if_neg (by exact c2)]
      exact tfFinalT_ok hk hA hP h0 k3

theorem tfStepT_error {op : TOp V} {precon : Option (TOp V)} {threshold : TNum S V} {matvecMax : Nat} {r0 : TArr V}
    {k : DKind} {s : TFLoop (TNum S V) (TArr V)} (hw : s.w.kind = k) (hd : s.d.kind.fits (op.dtype.join k))
    (hu : s.u.kind = op.dtype.join ((preKind precon).join k)) (ht : s.theta.kind = .real)
    (hAP : ¬ (op.dtype.fits k ∧ (preKind precon).fits k ∧ k ≠ .int)) :
    tfStepT op precon threshold matvecMax r0 s = .error .typeError := by
  unfold tfStepT tfPassT
  simp only
  unfold isub imul
  split
  · rename_i h1
    rw [except_bind_ok' rfl]
    simp only [TArr.smul_kind, TNum.div_kind, hw, hu, fits_join] at h1
    have hk : k = .int := by
      by_contra hk
      exact hAP ⟨h1.2.1, h1.2.2.1, hk⟩
    have hA : op.dtype = .int := by
      have := h1.2.1; rw [hk] at this; revert this; cases op.dtype <;> decide
    rw [if_neg]
    · rfl
    · intro h2
      simp only [TNum.mul_kind, TNum.div_kind, fits_join, ht] at h2
      have h3 := fits_trans h2.1.1.1 hd
      rw [hk, hA] at h3
      revert h3; decide
  · rfl

/-! ### Bi-CGSTAB -/

def BiLoop.vals (s : BiLoop (TNum S V) (TArr V)) : BiLoop S V where
  x := s.x.val
  r := s.r.val
  p := s.p.val
  v := s.v.val
  rho := s.rho.val
  rhoNext := s.rhoNext.val
  alpha := s.alpha.val
  omega := s.omega.val
  residNorm := s.residNorm.val
  nMatvec := s.nMatvec
  finished := s.finished
  calls := s.calls.map TArr.val

structure BiKinds (D : DKind) (s : BiLoop (TNum S V) (TArr V)) : Prop where
  x : s.x.kind = D
  r : s.r.kind.fits D
  p : s.p.kind = D
  v : s.v.kind = D
  rho : s.rho.kind.fits D
  rhoNext : s.rhoNext.kind.fits D
  alpha : s.alpha.kind.fits D
  omega : s.omega.kind.fits D
  some_real : s.finished = false → s.rho.kind ≠ .int ∨ s.rhoNext.kind ≠ .int

theorem biStepT_ok {op : TOp V} {precon : Option (TOp V)} {threshold : TNum S V} {matvecMax : Nat} {r0 : TArr V}
    {D : DKind} (hD : D ≠ .int) (hA : op.dtype.fits D) (hP : (preKind precon).fits D) (h0 : r0.kind.fits D)
    {s : BiLoop (TNum S V) (TArr V)} (hs : BiKinds D s) (hf : s.finished = false) :
    ∃ s', biStepT op precon threshold matvecMax r0 s = .ok s' ∧ BiKinds D s' ∧
      s'.vals = biStep op.fn (precon.map TOp.fn) threshold.val matvecMax r0.val s.vals := by
  have hA' : op.dtype.join D = D := hA
  have hP' : (preKind precon).join D = D := hP
  have h0' : r0.kind.join D = D := h0
  have hr' : s.r.kind.join D = D := hs.r
  have hrn' : s.rhoNext.kind.join D = D := hs.rhoNext
  unfold biStepT
  simp only
  generalize hb : (s.rhoNext / s.rho * s.alpha / s.omega : TNum S V) = beta
  have n1 : s.rhoNext.kind.join s.rho.kind ≠ .int := by
    rw [Ne, join_eq_int]; rcases hs.some_real hf with h | h <;> tauto
  have b1 : beta.kind.fits D := by
    rw [← hb]; simp only [TNum.div_kind, TNum.mul_kind, fits_join]
    exact ⟨⟨⟨hs.rhoNext, hs.rho⟩, hs.alpha⟩, hs.omega⟩
  have b2 : beta.val = s.rhoNext.val / s.rho.val * s.alpha.val / s.omega.val := by
    rw [← hb, TNum.div_val (by
      simp only [TNum.div_kind, TNum.mul_kind, Ne, join_eq_int]
      rw [Ne, join_eq_int] at n1; tauto), TNum.mul_val, TNum.div_val n1]
  rw [imul_ok (by rw [hs.p]; exact b1), except_bind_ok' rfl,
    isub_ok (by
      change (smul (beta * s.omega) s.v).kind.fits s.p.kind
      simp only [TArr.smul_kind, TNum.mul_kind, fits_join, hs.v, hs.p]
      exact ⟨⟨b1, hs.omega⟩, fits_refl _⟩), except_bind_ok' rfl,
    iadd_ok (by change s.r.kind.fits s.p.kind; rw [hs.p]; exact hs.r), except_bind_ok' rfl]
  generalize hp : (⟨s.p.kind, smul beta.val s.p.val - (smul (beta * s.omega) s.v).val + s.r.val⟩ : TArr V) = p
  have p1 : p.kind = D := by rw [← hp]; exact hs.p
  have p2 : p.val = smul beta.val s.p.val - smul (beta.val * s.omega.val) s.v.val + s.r.val := by rw [← hp]; rfl
  generalize hq : applyPreconT precon p = q
  have q1 : q.kind = D := by rw [← hq]; simp [p1, hP']
  have q2 : q.val = applyPrecon (precon.map TOp.fn) p.val := by rw [← hq]; simp
  generalize hal : (s.rhoNext / dot r0 (op.mul q) : TNum S V) = alpha
  have a1 : alpha.kind = D := by rw [← hal]; simp [q1, hA', h0', hrn']
  have a2 : alpha.val = s.rhoNext.val / dot r0.val (op.fn q.val) := by
    rw [← hal, TNum.div_val (by rw [← TNum.div_kind, hal, a1]; exact hD)]; simp
  generalize hss : s.r - smul alpha (op.mul q) = ss
  have s1 : ss.kind = D := by rw [← hss]; simp [a1, q1, hA', hr', DKind.join_self]
  have s2 : ss.val = s.r.val - smul alpha.val (op.fn q.val) := by rw [← hss]; simp
  unfold biStep
  simp only [TNum.le_val, TArr.norm_val, BiLoop.vals]
  simp only [← b2, ← p2, ← q2, ← a2, ← s2]
  have hx : (smul alpha q).kind.fits s.x.kind := by
    rw [TArr.smul_kind, a1, q1, hs.x, DKind.join_self]; exact fits_refl D
  split
  · rw [iadd_ok hx, except_bind_ok' rfl]
    refine ⟨_, rfl, ⟨hs.x, hs.r, p1, by simp [q1, hA'], hs.rhoNext, hs.rhoNext, by rw [a1]; exact fits_refl D, hs.omega, ?_⟩, ?_⟩
    · intro h; cases h
    · simp
  · split
    · refine ⟨_, rfl, ⟨hs.x, hs.r, p1, by simp [q1, hA'], hs.rhoNext, hs.rhoNext, by rw [a1]; exact fits_refl D, hs.omega, ?_⟩, ?_⟩
      · intro h; cases h
      · simp
    · generalize hz : applyPreconT precon ss = z
      have z1 : z.kind = D := by rw [← hz]; simp [s1, hP']
      have z2 : z.val = applyPrecon (precon.map TOp.fn) ss.val := by rw [← hz]; simp
      generalize ho : (dot (op.mul z) ss / dot (op.mul z) (op.mul z) : TNum S V) = omega
      have o1 : omega.kind = D := by rw [← ho]; simp [z1, s1, hA', DKind.join_self]
      have o2 : omega.val = dot (op.fn z.val) ss.val / dot (op.fn z.val) (op.fn z.val) := by
        rw [← ho, TNum.div_val (by rw [← TNum.div_kind, ho, o1]; exact hD)]; simp
      rw [imul_ok (by rw [o1, z1]; exact fits_refl D), except_bind_ok' rfl,
        iadd_ok (by change z.kind.fits s.x.kind; rw [z1, hs.x]; exact fits_refl D), except_bind_ok' rfl,
        iadd_ok (by exact hx), except_bind_ok' rfl]
      refine ⟨_, rfl, ⟨hs.x, ?_, p1, by simp [q1, hA'], hs.rhoNext, ?_, by rw [a1]; exact fits_refl D,
        by rw [o1]; exact fits_refl D, fun _ => Or.inr ?_⟩, ?_⟩
      · simp only [TArr.sub_kind, TArr.smul_kind, TOp.mul_kind, s1, o1, z1, hA', DKind.join_self]; exact fits_refl D
      · simp only [TNum.mul_kind, TNum.neg_kind, TArr.dot_kind, TOp.mul_kind, o1, z1, hA', h0', DKind.join_self]; exact fits_refl D
      · simp only [TNum.mul_kind, TNum.neg_kind, TArr.dot_kind, TOp.mul_kind, o1, z1, hA', h0', DKind.join_self]; exact hD
      · simp [← z2, ← o2]

/-- With integers only, the first update of `p` raises. -/
theorem biStepT_int {op : TOp V} {precon : Option (TOp V)} {threshold : TNum S V} {matvecMax : Nat} {r0 : TArr V}
    {s : BiLoop (TNum S V) (TArr V)} (hp : s.p.kind = .int) (hr : s.rho.kind = .real) :
    biStepT op precon threshold matvecMax r0 s = .error .typeError := by
  unfold biStepT
  simp only
  rw [imul_error]
  · rfl
  · simp only [TNum.div_kind, TNum.mul_kind, fits_join, hp, hr]
    intro h
    have h := h.1.1.2
    revert h; decide

/-- The first pass with a preconditioner of a wider type. -/
theorem biStepT_pre {op : TOp V} {precon : Option (TOp V)} {threshold : TNum S V} {matvecMax : Nat} {r0 : TArr V}
    {D : DKind} (hP : ¬ (preKind precon).fits D)
    {s : BiLoop (TNum S V) (TArr V)} (hs : BiKinds D s) (hf : s.finished = false) :
    let t := biStep op.fn (precon.map TOp.fn) threshold.val matvecMax r0.val s.vals
    (le t.residNorm threshold.val = false ∧ t.nMatvec = s.nMatvec + 1 →
      ∃ s', biStepT op precon threshold matvecMax r0 s = .ok s' ∧ s'.vals = t ∧ t.finished = true) ∧
    (¬ (le t.residNorm threshold.val = false ∧ t.nMatvec = s.nMatvec + 1) →
      biStepT op precon threshold matvecMax r0 s = .error .typeError) := by
  intro t
  have n1 : s.rhoNext.kind.join s.rho.kind ≠ .int := by
    rw [Ne, join_eq_int]; rcases hs.some_real hf with h | h <;> tauto
  have ht : t = biStep op.fn (precon.map TOp.fn) threshold.val matvecMax r0.val s.vals := rfl
  clear_value t
  unfold biStepT
  simp only
  generalize hb : (s.rhoNext / s.rho * s.alpha / s.omega : TNum S V) = beta
  have b1 : beta.kind.fits D := by
    rw [← hb]; simp only [TNum.div_kind, TNum.mul_kind, fits_join]
    exact ⟨⟨⟨hs.rhoNext, hs.rho⟩, hs.alpha⟩, hs.omega⟩
  have b2 : beta.val = s.rhoNext.val / s.rho.val * s.alpha.val / s.omega.val := by
    rw [← hb, TNum.div_val (by
      simp only [TNum.div_kind, TNum.mul_kind, Ne, join_eq_int]
      rw [Ne, join_eq_int] at n1; tauto), TNum.mul_val, TNum.div_val n1]
  rw [imul_ok (by rw [hs.p]; exact b1), except_bind_ok' rfl,
    isub_ok (by
      change (smul (beta * s.omega) s.v).kind.fits s.p.kind
      simp only [TArr.smul_kind, TNum.mul_kind, fits_join, hs.v, hs.p]
      exact ⟨⟨b1, hs.omega⟩, fits_refl _⟩), except_bind_ok' rfl,
    iadd_ok (by change s.r.kind.fits s.p.kind; rw [hs.p]; exact hs.r), except_bind_ok' rfl]
  generalize hp : (⟨s.p.kind, smul beta.val s.p.val - (smul (beta * s.omega) s.v).val + s.r.val⟩ : TArr V) = p
  have p1 : p.kind = D := by rw [← hp]; exact hs.p
  have p2 : p.val = smul beta.val s.p.val - smul (beta.val * s.omega.val) s.v.val + s.r.val := by rw [← hp]; rfl
  generalize hq : applyPreconT precon p = q
  have q1 : ¬ q.kind.fits D := by
    rw [← hq]; simp only [applyPreconT_kind, fits_join]; tauto
  have q2 : q.val = applyPrecon (precon.map TOp.fn) p.val := by rw [← hq]; simp
  have q3 : q.kind ≠ .int := fun h => q1 (by rw [h]; exact int_fits D)
  generalize hal : (s.rhoNext / dot r0 (op.mul q) : TNum S V) = alpha
  have a2 : alpha.val = s.rhoNext.val / dot r0.val (op.fn q.val) := by
    rw [← hal, TNum.div_val (by simp only [TArr.dot_kind, TOp.mul_kind, Ne, join_eq_int]; tauto)]; simp
  generalize hss : s.r - smul alpha (op.mul q) = ss
  have s2 : ss.val = s.r.val - smul alpha.val (op.fn q.val) := by rw [← hss]; simp
  have s1 : ¬ ss.kind.fits D := by
    rw [← hss]; simp only [TArr.sub_kind, TArr.smul_kind, TOp.mul_kind, fits_join]; tauto
  unfold biStep at ht
  simp only [BiLoop.vals] at ht
  simp only [← b2, ← p2, ← q2, ← a2, ← s2] at ht
  simp only [TNum.le_val, TArr.norm_val]
  have hx : ∀ u : V, ¬ (smul alpha q).kind.fits (⟨s.x.kind, u⟩ : TArr V).kind := by
    intro u
    change ¬ (smul alpha q).kind.fits s.x.kind
    rw [hs.x]; simp only [TArr.smul_kind, fits_join]; tauto
  by_cases c1 : le (norm ss.val) threshold.val = true
  · rw [if_pos c1] at ht
    rw [if_pos c1]
    rw [ht]
    refine ⟨fun h => ?_, fun _ => ?_⟩
    · rw [c1] at h; exact absurd h.1 (by simp)
    · rw [iadd_error (hx s.x.val)]; rfl
  · rw [if_neg c1] at ht
    rw [if_neg c1]
    by_cases c2 : s.nMatvec + 1 ≥ matvecMax
    · rw [if_pos c2] at ht
      rw [if_pos c2]
      rw [ht]
      refine ⟨fun _ => ⟨_, rfl, ?_, rfl⟩, fun h => absurd ⟨by simpa using c1, rfl⟩ h⟩
      simp [BiLoop.vals]
    · rw [if_neg c2] at ht
      rw [if_neg c2]
      rw [ht]
      refine ⟨fun h => ?_, fun _ => ?_⟩
      · simp only at h; omega
      · generalize (dot (op.mul (applyPreconT precon ss)) ss / dot (op.mul (applyPreconT precon ss))
          (op.mul (applyPreconT precon ss)) : TNum S V) = omega
        generalize hz : applyPreconT precon ss = z
        have z1 : ¬ z.kind.fits D := by rw [← hz]; simp only [applyPreconT_kind, fits_join]; tauto
        unfold imul
        split
        · rw [except_bind_ok' rfl, iadd_error (by change ¬ z.kind.fits s.x.kind; rw [hs.x]; exact z1)]; rfl
        · rfl

/-! ### The states before the loops -/

/-- the type of the initial residual of CGS, Bi-CGSTAB and TFQMR -/
def startKind (op : TOp V) (rhs : TArr V) (kw : KrylovKw (TArr V)) : DKind :=
  if kw.guess.isSome then op.dtype.join rhs.kind else rhs.kind

theorem startKind_fits (op : TOp V) (rhs : TArr V) (kw : KrylovKw (TArr V)) :
    (startKind op rhs kw).fits (op.dtype.join rhs.kind) := by
  unfold startKind; split
  · exact fits_refl _
  · exact fits_right _ _

/-- if the operator is not wider than the initial residual, the common type is that of the initial residual -/
theorem startKind_eq {op : TOp V} {rhs : TArr V} {kw : KrylovKw (TArr V)} (h : op.dtype.fits (startKind op rhs kw)) :
    op.dtype.join rhs.kind = startKind op rhs kw := by
  unfold startKind at h ⊢
  split
  · rfl
  · rename_i hg; rw [if_neg hg] at h; exact h

theorem sub_mul_kind (op : TOp V) (rhs g : TArr V) :
    (rhs - op.mul (TArr.astype S (op.dtype.join rhs.kind) g)).kind = op.dtype.join rhs.kind := by
  rw [TArr.sub_kind, TOp.mul_kind, TArr.astype_kind]
  cases op.dtype <;> cases rhs.kind <;> rfl

theorem cgsSolve_split (op : TOp V) (o : TOpts S V) (n : Nat) (rhs : TArr V) (kw : KrylovKw (TArr V)) :
    ∃ (r0 : TArr V) (thr rn : TNum S V) (s0 : CGSLoop (TNum S V) (TArr V)),
      r0.kind = startKind op rhs kw ∧ s0.x.kind = op.dtype.join rhs.kind ∧ s0.r.kind = r0.kind ∧ s0.u.kind = r0.kind ∧
      s0.p.kind = r0.kind ∧ s0.rho.kind = r0.kind ∧ s0.nMatvec = 0 ∧
      cgsSolveT op o n rhs kw = (cgsLoopT op o.precon thr (kw.matvecMax.getD (2 * n)) r0 s0 >>= fun s =>
        .ok ({ residNorm0 := rn, converged := le s.residNorm thr, nMatvec := s.nMatvec, x := s.x,
               residNorm := s.residNorm }, s.calls)) ∧
      cgsSolve op.fn o.vals n rhs.val (KrylovKw.vals S (op.dtype.join rhs.kind) kw) =
        (let s := cgsLoop op.fn (o.precon.map TOp.fn) thr.val (kw.matvecMax.getD (2 * n)) r0.val s0.vals
         ({ residNorm0 := rn.val, converged := le s.residNorm thr.val, nMatvec := s.nMatvec, x := s.x,
            residNorm := s.residNorm }, s.calls)) := by
  unfold cgsSolveT cgsSolve startKind
  cases hg : kw.guess with
  | none =>
    simp only [KrylovKw.vals, hg, Option.map_none, Option.getD_none, Option.isSome_none, Bool.false_eq_true, if_false]
    refine ⟨rhs, _, _, _, rfl, ?_, ?_, ?_, ?_, ?_, ?_, rfl, ?_⟩
    · rfl
    · rfl
    · rfl
    · rfl
    · exact DKind.join_self _
    · rfl
    · simp [CGSLoop.vals, astype_zeros, TOpts.vals]
  | some g =>
    simp only [KrylovKw.vals, hg, Option.map_some, Option.getD_some, Option.isSome_some, if_true]
    refine ⟨_, _, _, _, sub_mul_kind op rhs g, ?_, ?_, ?_, ?_, ?_, ?_, rfl, ?_⟩
    · rfl
    · rfl
    · rfl
    · rfl
    · exact DKind.join_self _
    · rfl
    · simp [CGSLoop.vals, TOpts.vals]

theorem biSolve_split (op : TOp V) (o : TOpts S V) (n : Nat) (rhs : TArr V) (kw : KrylovKw (TArr V)) :
    ∃ (r0 : TArr V) (thr rn : TNum S V) (s0 : BiLoop (TNum S V) (TArr V)),
      r0.kind = startKind op rhs kw ∧ s0.x.kind = op.dtype.join rhs.kind ∧ s0.r = r0 ∧
      s0.p.kind = op.dtype.join rhs.kind ∧ s0.v.kind = op.dtype.join rhs.kind ∧ s0.rhoNext.kind = r0.kind ∧
      s0.rho.kind = .real ∧ s0.alpha.kind = .real ∧ s0.omega.kind = .real ∧
      s0.nMatvec = (if kw.guess.isSome then 1 else 0) ∧
      biSolveT op o n rhs kw = (biLoopT op o.precon thr (kw.matvecMax.getD (2 * n)) r0 s0 >>= fun s =>
        .ok ({ residNorm0 := rn, converged := le s.residNorm thr, nMatvec := s.nMatvec, x := s.x,
               residNorm := s.residNorm }, s.calls)) ∧
      biSolve op.fn o.vals n rhs.val (KrylovKw.vals S (op.dtype.join rhs.kind) kw) =
        (let s := biLoop op.fn (o.precon.map TOp.fn) thr.val (kw.matvecMax.getD (2 * n)) r0.val s0.vals
         ({ residNorm0 := rn.val, converged := le s.residNorm thr.val, nMatvec := s.nMatvec, x := s.x,
            residNorm := s.residNorm }, s.calls)) := by
  unfold biSolveT biSolve startKind
  cases hg : kw.guess with
  | none =>
    simp only [KrylovKw.vals, hg, Option.map_none, Option.getD_none, Option.isSome_none, Bool.false_eq_true, if_false]
    refine ⟨rhs, _, _, _, rfl, ?_, ?_, ?_, ?_, ?_, ?_, ?_, ?_, ?_, rfl, ?_⟩
    · rfl
    · rfl
    · rfl
    · rfl
    · exact DKind.join_self _
    · rfl
    · rfl
    · rfl
    · rfl
    · simp [BiLoop.vals, astype_zeros, TOpts.vals]
  | some g =>
    simp only [KrylovKw.vals, hg, Option.map_some, Option.getD_some, Option.isSome_some, if_true]
    refine ⟨_, _, _, _, sub_mul_kind op rhs g, ?_, ?_, ?_, ?_, ?_, ?_, ?_, ?_, ?_, rfl, ?_⟩
    · rfl
    · rfl
    · rfl
    · rfl
    · exact DKind.join_self _
    · rfl
    · rfl
    · rfl
    · rfl
    · simp [BiLoop.vals, TOpts.vals]

theorem tfSolve_split (op : TOp V) (o : TOpts S V) (n : Nat) (rhs : TArr V) (kw : KrylovKw (TArr V)) :
    ∃ (r0 : TArr V) (thr rn : TNum S V) (s0 : TFLoop (TNum S V) (TArr V)),
      r0.kind = startKind op rhs kw ∧ s0.m = none ∧
      (s0.finished = false → s0.x.kind = op.dtype.join rhs.kind ∧ s0.y = r0 ∧ s0.w = r0 ∧
        s0.d.kind = op.dtype.join rhs.kind ∧ s0.z.kind = (preKind o.precon).join r0.kind ∧
        s0.u.kind = op.dtype.join ((preKind o.precon).join r0.kind) ∧ s0.v = s0.u ∧ s0.rho.kind = r0.kind ∧
        s0.theta.kind = .real ∧ s0.eta.kind = .real ∧ s0.residNorm.kind = .real ∧ s0.nMatvec = 1) ∧
      (s0.finished = false → 1 ≤ kw.matvecMax.getD (2 * n)) ∧
      tfSolveT op o n rhs kw = (tfLoopT op o.precon thr (kw.matvecMax.getD (2 * n)) r0 s0 >>= fun s => tfResult thr rn s) ∧
      tfSolve op.fn o.vals n rhs.val (KrylovKw.vals S (op.dtype.join rhs.kind) kw) =
        tfResult thr.val rn.val (tfLoop op.fn (o.precon.map TOp.fn) thr.val (kw.matvecMax.getD (2 * n)) r0.val s0.vals) := by
  have habs : ∀ a : DKind, (a.join .real).abs = .real := by intro a; cases a <;> rfl
  unfold tfSolveT tfSolve startKind
  cases hg : kw.guess with
  | none =>
    simp only [KrylovKw.vals, hg, Option.map_none, Option.getD_none, Option.isSome_none, Bool.false_eq_true, if_false]
    refine ⟨rhs, _, _, _, rfl, ?_, ?_, ?_, rfl, ?_⟩
    · split <;> rfl
    · split
      · intro h; cases h
      · intro _
        refine ⟨rfl, rfl, rfl, rfl, by simp, by simp, rfl, DKind.join_self _, rfl, rfl, habs _, rfl⟩
    · split
      · intro h; cases h
      · rename_i h
        intro _
        simp only [ge_iff_le, Nat.le_zero_eq, Bool.or_eq_true, decide_eq_true_eq, not_or] at h
        omega
    · rw [apply_ite TFLoop.vals]
      simp [TFLoop.vals, astype_zeros, TOpts.vals]
  | some g =>
    simp only [KrylovKw.vals, hg, Option.map_some, Option.getD_some, Option.isSome_some, if_true]
    refine ⟨_, _, _, _, sub_mul_kind op rhs g, ?_, ?_, ?_, rfl, ?_⟩
    · split <;> rfl
    · split
      · intro h; cases h
      · intro _
        refine ⟨rfl, rfl, rfl, rfl, by simp, by simp, rfl, DKind.join_self _, rfl, rfl, habs _, rfl⟩
    · split
      · intro h; cases h
      · rename_i h
        intro _
        simp only [ge_iff_le, Nat.le_zero_eq, Bool.or_eq_true, decide_eq_true_eq, not_or] at h
        omega
    · rw [apply_ite TFLoop.vals]
      simp [TFLoop.vals, astype_zeros, TOpts.vals]

end Verif.Solver
