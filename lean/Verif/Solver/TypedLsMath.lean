import Verif.Solver.TypedLsSpec
import Verif.Solver.PreconTwo

/-! # Lemmas on the typed least-squares solvers: real arrays stay real -/

namespace Verif.Solver
open Scalar Vect Linop

variable {S U V : Type} [Scalar S] [Vect S U] [Vect S V]

section
variable {A : DOp U V} {kM kN k : DKind}

theorem DKind.join_real {k : DKind} (h : k ≠ .complex) : k.join .real = .real := by cases k <;> simp_all [DKind.join]
theorem DKind.real_join {k : DKind} (h : k ≠ .complex) : DKind.real.join k = .real := by cases k <;> simp_all [DKind.join]
theorem DKind.join_not {k l : DKind} (h : k ≠ .complex) (h' : l ≠ .complex) : k.join l ≠ .complex := by
  cases k <;> cases l <;> simp_all [DKind.join]

theorem DOp.mul_real (h : A.dtype ≠ .complex) (v : V) : A.mul (DArr.real v) = DArr.real (A.fn v) := by
  simp [DOp.mul, DArr.real, DKind.join_real h]
theorem DOp.tmul_real (h : A.dtype ≠ .complex) (u : U) : A.tmul (DArr.real u) = DArr.real (A.tfn u) := by
  simp [DOp.tmul, DArr.real, DKind.join_real h]

theorem real_sub (u v : V) : DArr.real u - DArr.real v = DArr.real (u - v) := rfl
theorem real_add (u v : V) : DArr.real u + DArr.real v = DArr.real (u + v) := rfl
theorem real_smul (a : S) (v : V) : smul a (DArr.real v) = DArr.real (smul a v) := rfl
theorem real_vdiv (a : S) (v : V) : vdiv (DArr.real v) a = DArr.real (vdiv v a) := rfl
theorem real_norm (v : V) : norm (DArr.real v) = norm v := rfl
theorem real_zeros : (zeros : DArr V) = DArr.real zeros := rfl
theorem any_smul (hk : k ≠ .complex) (a : S) (v : V) : smul a (⟨k, v⟩ : DArr V) = DArr.real (smul a v) := by
  change (⟨DKind.real.join k, _⟩ : DArr V) = _
  rw [DKind.real_join hk]; rfl
theorem any_vdiv (hk : k ≠ .complex) (a : S) (v : V) : vdiv (⟨k, v⟩ : DArr V) a = DArr.real (vdiv v a) := by
  change (⟨k.join .real, _⟩ : DArr V) = _
  rw [DKind.join_real hk]; rfl
theorem real_idiv (a : S) (v : V) : (DArr.real v).idiv a = .ok (DArr.real (vdiv v a)) := rfl
theorem real_imul (a : S) (v : V) : (DArr.real v).imul a = .ok (DArr.real (smul a v)) := rfl
theorem real_iadd (u v : V) : (DArr.real u).iadd (DArr.real v) = .ok (DArr.real (u + v)) := rfl
theorem real_dsqrt (u v : V) : dsqrt (DArr.real u) (DArr.real v) = pysqrt (dot u v) := rfl

theorem real_precon {M : Option (V → V)} (h : M ≠ none → k ≠ .complex) (v : V) :
    applyPrecon (dprecon k M) (DArr.real v) = DArr.real (applyPrecon M v) := by
  cases M with
  | none => rfl
  | some f => simp [applyPrecon, dprecon, DArr.real, DKind.join_real (h (by simp))]

end

/-! ### The first vectors -/

section
variable {A : DOp U V} {kM kN k : DKind} {M : Option (U → U)} {N : Option (V → V)}

theorem first_complex (h : ComplexRhs k kM M) (b : U) :
    dsqrt (applyPrecon (dprecon kM M) ⟨k, b⟩) ⟨k, b⟩ = .error .typeError := by
  unfold dsqrt
  rw [if_pos]
  cases M with
  | none => rcases h with h | h <;> simp_all [applyPrecon, dprecon, DKind.join]
  | some f =>
    rcases h with h | ⟨-, h⟩ <;> subst h
    · cases kM <;> rfl
    · cases k <;> rfl

theorem first_sqrt (h : ¬ ComplexRhs k kM M) (b : U) :
    dsqrt (applyPrecon (dprecon kM M) ⟨k, b⟩) ⟨k, b⟩ = pysqrt (dot (applyPrecon M b) b) := by
  unfold dsqrt
  rw [if_neg]
  · cases M <;> rfl
  · intro hc
    apply h
    cases M with
    | none => cases k <;> simp_all [applyPrecon, dprecon, DKind.join, ComplexRhs]
    | some f => cases k <;> cases kM <;> simp_all [applyPrecon, dprecon, DKind.join, ComplexRhs]

theorem int_idiv {ρ : Type} (beta : S) (b : U) (f : DArr U → DArr U → Except PyError ρ) (h : ¬ ComplexRhs DKind.int kM M) :
    (do
      let u ← (applyPrecon (dprecon kM M) ⟨.int, b⟩).idiv beta
      let Mu ← (⟨.int, b⟩ : DArr U).idiv beta
      f u Mu) = .error .typeError := by
  have h2 : (⟨.int, b⟩ : DArr U).idiv beta = .error .typeError := rfl
  rw [h2]
  cases hd : (applyPrecon (dprecon kM M) ⟨.int, b⟩).idiv beta with
  | ok u => rfl
  | error e =>
    unfold DArr.idiv at hd
    split at hd
    · cases hd
    · cases hd; rfl

theorem second_complex (h : A.dtype = .complex ∨ (N ≠ none ∧ kN = .complex)) (u : U) :
    dsqrt (applyPrecon (dprecon kN N) (A.tmul (DArr.real u))) (A.tmul (DArr.real u)) = .error .typeError := by
  unfold dsqrt
  rw [if_pos]
  cases N with
  | none => rcases h with h | h <;> simp_all [applyPrecon, dprecon, DOp.tmul, DArr.real, DKind.join]
  | some f =>
    rcases h with h | ⟨-, h⟩
    · cases kN <;> simp [applyPrecon, dprecon, DOp.tmul, h, DKind.join]
    · rcases A with ⟨kA, g, g'⟩
      cases kA <;> simp [applyPrecon, dprecon, DOp.tmul, DArr.real, h, DKind.join]

theorem not_complexRhs_precon (h : ¬ ComplexRhs k kM M) : M ≠ none → kM ≠ .complex := fun hM hk => h (.inr ⟨hM, hk⟩)

theorem not_complexRhs_kind (h : ¬ ComplexRhs k kM M) : k ≠ .complex := fun hk => h (.inl hk)

theorem not_narrow {A : DOp U V} (h : ¬ Narrow A k kN N) (hk : k ≠ .complex) :
    k = .real ∧ A.dtype ≠ .complex ∧ (N ≠ none → kN ≠ .complex) := by
  refine ⟨?_, fun hA => h (.inr (.inl hA)), fun hN hk => h (.inr (.inr ⟨hN, hk⟩))⟩
  cases k with
  | int => exact absurd (Or.inl rfl) h
  | real => rfl
  | complex => exact absurd rfl hk

end

theorem bound_map {α β : Type} (f : α → β) (name : String) (a : Option α) : bound name (a.map f) = (bound name a).map f := by
  cases a <;> rfl

theorem map_bind {ε α β γ : Type} (x : Except ε α) (f : α → β) (g : β → Except ε γ) : (x.map f >>= g) = x >>= fun a => g (f a) := by
  cases x <;> rfl

theorem bind_map {ε α β γ : Type} (x : Except ε α) (g : α → Except ε β) (f : β → γ) : (x >>= g).map f = x >>= fun a => (g a).map f := by
  cases x <;> rfl

theorem ok_bind {ε α β : Type} (a : α) (g : α → Except ε β) : (Except.ok a >>= g) = g a := rfl

theorem pure_map {ε α β : Type} (a : α) (f : α → β) : (pure a : Except ε α).map f = pure (f a) := rfl

theorem map_ite {ε α β : Type} (c : Prop) [Decidable c] (x y : Except ε α) (f : α → β) :
    (if c then x else y).map f = if c then x.map f else y.map f := by split <;> rfl

theorem bind_congr' {ε α β : Type} {x : Except ε α} {f g : α → Except ε β} (h : ∀ a, f a = g a) : (x >>= f) = x >>= g := by
  rw [funext h]

/-! ### LSQR -/

/-- the state with arrays of floats; `Mu`, which holds the right-hand side before the loop, has the dtype `k` then -/
def LsqrLoop.typed (k : DKind) (s : LsqrLoop S U V) : LsqrLoop S (DArr U) (DArr V) :=
  { x := DArr.real s.x, Mu := ⟨if s.itn = 0 then k else .real, s.Mu⟩, Nv := DArr.real s.Nv, v := s.v.map DArr.real,
    w := s.w.map DArr.real, alpha := s.alpha, beta := s.beta, rhobar := s.rhobar, phibar := s.phibar, Anorm := s.Anorm,
    Acond := s.Acond, Arnorm := s.Arnorm, r1norm := s.r1norm, r2norm := s.r2norm, xnorm := s.xnorm, xxnorm := s.xxnorm,
    ddnorm := s.ddnorm, res2 := s.res2, z := s.z, cs2 := s.cs2, sn2 := s.sn2, xNrgNorm2 := s.xNrgNorm2, dErr := s.dErr,
    istop := s.istop, itn := s.itn, resids := s.resids, normalEqns := s.normalEqns, dirErrors := s.dirErrors,
    iterates := s.iterates.map DArr.real, products := s.products, last := s.last }

section
variable {A : DOp U V} {kM kN k : DKind} {kw : LsqrKw S U V}

theorem lsqrBidiagD_eq (hk : k ≠ .complex) (hA : A.dtype ≠ .complex) (hM : kw.M ≠ none → kM ≠ .complex)
    (hN : kw.N ≠ none → kN ≠ .complex) (s : LsqrLoop S U V) (v : V) :
    lsqrBidiagD A (kw.typed kM kN) (s.typed k) (DArr.real v) =
      (lsqrBidiag A.fn A.tfn kw s v).map fun r => (DArr.real r.1, DArr.real r.2.1, DArr.real r.2.2.1, r.2.2.2) := by
  have hk' : (if s.itn = 0 then k else DKind.real) ≠ .complex := by split <;> simp_all
  unfold lsqrBidiagD lsqrBidiag
  simp only [LsqrLoop.typed, LsqrKw.typed, DOp.mul_real hA, any_smul hk', real_sub, real_precon hM, real_dsqrt, real_idiv, ok_bind,
    DOp.tmul_real hA, real_smul, real_precon hN, bind_map, map_ite, pure_map]

theorem lsqrStepD_eq (hk : k ≠ .complex) (hA : A.dtype ≠ .complex) (hM : kw.M ≠ none → kM ≠ .complex)
    (hN : kw.N ≠ none → kN ≠ .complex) (lim : Int) (bnorm : S) (s : LsqrLoop S U V) :
    lsqrStepD A (kw.typed kM kN) lim bnorm (s.typed k) = (lsqrStep A.fn A.tfn kw lim bnorm s).map (LsqrLoop.typed k) := by
  unfold lsqrStepD lsqrStep
  rw [bind_map, show (s.typed k).v = s.v.map DArr.real from rfl, bound_map, map_bind]
  refine bind_congr' fun v0 => ?_
  rw [lsqrBidiagD_eq hk hA hM hN, bind_map, map_bind]
  refine bind_congr' fun ⟨Mu, Nv, v, alpha, beta, Anorm, products⟩ => ?_
  rw [bind_map]
  refine bind_congr' fun ⟨rhobar1, psi, phibar⟩ => ?_
  rw [bind_map]
  refine bind_congr' fun ⟨rho, theta, rhobar, phi, phibar, tau, t1, t2⟩ => ?_
  rw [bind_map]
  refine bind_congr' fun invRho => ?_
  rw [bind_map, show (s.typed k).w = s.w.map DArr.real from rfl, bound_map, map_bind]
  refine bind_congr' fun w => ?_
  simp only [show (s.typed k).x = DArr.real s.x from rfl, real_smul, real_iadd, real_imul, ok_bind, real_norm, bind_map]
  refine bind_congr' fun j => ?_
  refine bind_congr' fun ⟨xnorm, cs2, sn2, z⟩ => ?_
  refine bind_congr' fun tests => ?_
  simp only [pure_map, LsqrLoop.typed, Nat.add_eq_zero_iff, one_ne_zero, and_false, if_false]
  congr 2
  cases hs : kw.storeIterates <;> simp [LsqrKw.typed, hs]

theorem lsqrLoopD_eq (hk : k ≠ .complex) (hA : A.dtype ≠ .complex) (hM : kw.M ≠ none → kM ≠ .complex)
    (hN : kw.N ≠ none → kN ≠ .complex) (lim : Int) (bnorm : S) (s : LsqrLoop S U V) :
    lsqrLoopD A (kw.typed kM kN) lim bnorm (s.typed k) = (lsqrLoop A.fn A.tfn kw lim bnorm s).map (LsqrLoop.typed k) :=
  exceptLoop_map (LsqrLoop.typed k) (fun _ => rfl) (lsqrStepD_eq hk hA hM hN lim bnorm) s

/-- without a vector `v` the loop raises or is not entered, whatever the dtypes -/
theorem lsqrLoopD_unbound (lim : Int) (bnorm : S) (s : LsqrLoop S U V) (hv : s.v = none) :
    lsqrLoopD A (kw.typed kM kN) lim bnorm (s.typed k) = (lsqrLoop A.fn A.tfn kw lim bnorm s).map (LsqrLoop.typed k) := by
  unfold lsqrLoopD lsqrLoop
  rw [exceptLoop, exceptLoop, show lsqrCont lim (s.typed k) = lsqrCont lim s from rfl]
  have h1 : lsqrStepD A (kw.typed kM kN) lim bnorm (s.typed k) = .error (.unboundLocal "v") := by
    unfold lsqrStepD
    rw [show (s.typed k).v = s.v.map DArr.real from rfl, hv]
    rfl
  have h2 : lsqrStep A.fn A.tfn kw lim bnorm s = .error (.unboundLocal "v") := by
    unfold lsqrStep
    rw [hv]
    rfl
  by_cases hc : lsqrCont lim s = true
  · rw [dif_pos hc, dif_pos hc]
    split
    · rename_i e he
      rw [h1] at he
      cases he
      split
      · rename_i e he
        rw [h2] at he
        cases he
        rfl
      · rename_i t ht
        rw [h2] at ht
        cases ht
    · rename_i t ht
      rw [h1] at ht
      cases ht
  · rw [dif_neg hc, dif_neg hc]
    rfl

theorem lsqrStart_typed (beta : S) (Mu : U) (Nv : V) (v w : Option V) (alpha : S) (products : Nat) :
    lsqrStart (kw.typed kM kN) beta ⟨k, Mu⟩ (DArr.real Nv) (v.map DArr.real) (w.map DArr.real) alpha products =
      (lsqrStart kw beta Mu Nv v w alpha products).typed k := by
  unfold lsqrStart LsqrLoop.typed
  congr 1
  cases hs : kw.storeIterates <;> simp [LsqrKw.typed, hs, real_zeros]

theorem lsqrInitD_eq (hc : ¬ ComplexRhs k kM kw.M) (b : U) (hn : Narrow A k kN kw.N → ¬ BetaPos kw.M b) :
    lsqrInitD A (kw.typed kM kN) ⟨k, b⟩ = (lsqrInit A.tfn kw b).map (LsqrLoop.typed k) := by
  unfold lsqrInitD lsqrInit
  simp only
  rw [show (kw.typed kM kN).M = dprecon kM kw.M from rfl, show (kw.typed kM kN).N = dprecon kN kw.N from rfl, first_sqrt hc, bind_map]
  cases hp : pysqrt (dot (applyPrecon kw.M b) b) with
  | error e => rfl
  | ok beta =>
    rw [ok_bind, ok_bind, map_ite]
    by_cases hg : gt beta (lit 0) = true
    · have hn' : ¬ Narrow A k kN kw.N := fun h => hn h ⟨beta, hp, hg⟩
      obtain ⟨rfl, hA, hN⟩ := not_narrow hn' (not_complexRhs_kind hc)
      have hM := not_complexRhs_precon hc
      have e : (⟨DKind.real, b⟩ : DArr U) = DArr.real b := rfl
      simp only [hg, if_true, e, real_precon hM, real_idiv, ok_bind, DOp.tmul_real hA, real_precon hN, real_dsqrt, bind_map, map_ite,
        pure_map, ← lsqrStart_typed (kM := kM) (kN := kN), Option.map_some, Option.map_none]
      rfl
    · rw [if_neg hg, if_neg hg]
      simp only [pure_map, ← lsqrStart_typed (kM := kM) (kN := kN), Option.map_none, real_zeros]

theorem lsqrInitD_raises (b : U) (h : ComplexRhs k kM kw.M ∨ (Narrow A k kN kw.N ∧ BetaPos kw.M b)) :
    lsqrInitD A (kw.typed kM kN) ⟨k, b⟩ = .error .typeError := by
  unfold lsqrInitD
  simp only
  rw [show (kw.typed kM kN).M = dprecon kM kw.M from rfl, show (kw.typed kM kN).N = dprecon kN kw.N from rfl]
  by_cases hc : ComplexRhs k kM kw.M
  · rw [first_complex hc]
    rfl
  · obtain ⟨hn, beta, hp, hg⟩ := h.resolve_left hc
    rw [first_sqrt hc, hp, ok_bind, if_pos hg]
    cases k with
    | int => exact int_idiv beta b _ hc
    | complex => exact absurd (Or.inl rfl) hc
    | real =>
      have e : (⟨DKind.real, b⟩ : DArr U) = DArr.real b := rfl
      rw [e, real_precon (not_complexRhs_precon hc), real_idiv, ok_bind, real_idiv, ok_bind,
        second_complex (hn.resolve_left (by simp))]
      rfl

theorem lsqrInit_unbound {AT : U → V} {b : U} {s : LsqrLoop S U V} (hb : ¬ BetaPos kw.M b) (h : lsqrInit AT kw b = .ok s) : s.v = none := by
  unfold lsqrInit at h
  obtain ⟨beta, hp, h⟩ := except_bind_ok h
  have hg : ¬ gt beta (lit 0) = true := fun hg => hb ⟨beta, hp, hg⟩
  simp only [if_neg hg] at h
  cases h
  rfl

theorem narrow_int {N : Option (V → V)} {M : Option (U → U)} {b : U} (hA : A.dtype ≠ .complex) (hN : N ≠ none → kN ≠ .complex)
    (hk : k = .int → ¬ BetaPos M b) : Narrow A k kN N → ¬ BetaPos M b := by
  rintro (h | h | ⟨h, h'⟩)
  · exact hk h
  · exact absurd h hA
  · exact absurd h' (hN h)

end

/-! ### LSMR -/

/-- the state with arrays of floats; `Mu`, which holds the right-hand side before the loop, has the dtype `k` then -/
def LsmrLoop.typed (k : DKind) (s : LsmrLoop S U V) : LsmrLoop S (DArr U) (DArr V) :=
  { x := DArr.real s.x, Mu := ⟨if s.itn = 0 then k else .real, s.Mu⟩, Nv := s.Nv.map DArr.real, v := DArr.real s.v, alpha := s.alpha,
    beta := s.beta, h := DArr.real s.h, hbar := DArr.real s.hbar, alphabar := s.alphabar, rho := s.rho, rhobar := s.rhobar,
    cbar := s.cbar, sbar := s.sbar, zeta := s.zeta, zetabar := s.zetabar, betadd := s.betadd, betad := s.betad,
    rhodold := s.rhodold, tautildeold := s.tautildeold, thetatilde := s.thetatilde, d := s.d, normA2 := s.normA2, normA := s.normA,
    maxrbar := s.maxrbar, minrbar := s.minrbar, condA := s.condA, normr := s.normr, normar := s.normar, normx := s.normx,
    xNrgNorm2 := s.xNrgNorm2, dErr := s.dErr, istop := s.istop, itn := s.itn, resids := s.resids, normalEqns := s.normalEqns,
    norms := s.norms, dirErrors := s.dirErrors, iterates := s.iterates.map DArr.real, products := s.products }

section
variable {A : DOp U V} {kM kN k : DKind} {kw : LsmrKw S U V}

theorem lsmrBidiagD_eq (hk : k ≠ .complex) (hA : A.dtype ≠ .complex) (hM : kw.M ≠ none → kM ≠ .complex)
    (hN : kw.N ≠ none → kN ≠ .complex) (s : LsmrLoop S U V) :
    lsmrBidiagD A (kw.typed kM kN) (s.typed k) =
      (lsmrBidiag A.fn A.tfn kw s).map fun r => (DArr.real r.1, r.2.1.map DArr.real, DArr.real r.2.2.1, r.2.2.2) := by
  have hk' : (if s.itn = 0 then k else DKind.real) ≠ .complex := by split <;> simp_all
  unfold lsmrBidiagD lsmrBidiag
  simp only [LsmrLoop.typed, LsmrKw.typed, DOp.mul_real hA, any_smul hk', real_sub, real_precon hM, real_dsqrt, real_idiv, ok_bind,
    bound_map, map_bind, DOp.tmul_real hA, real_smul, real_precon hN, bind_map, map_ite, pure_map, Option.map_some]

theorem lsmrVectorsD_eq (r : LsmrRot S) (s : LsmrLoop S U V) (v : V) :
    lsmrVectors r (s.typed k) (DArr.real v) =
      (lsmrVectors r s v).map fun p => (DArr.real p.1, DArr.real p.2.1, DArr.real p.2.2) := by
  unfold lsmrVectors
  simp only [bind_map, pure_map]
  rfl

theorem lsmrStepD_eq (hk : k ≠ .complex) (hA : A.dtype ≠ .complex) (hM : kw.M ≠ none → kM ≠ .complex)
    (hN : kw.N ≠ none → kN ≠ .complex) (lim : Int) (normb : S) (s : LsmrLoop S U V) :
    lsmrStepD A (kw.typed kM kN) lim normb (s.typed k) = (lsmrStep A.fn A.tfn kw lim normb s).map (LsmrLoop.typed k) := by
  unfold lsmrStepD lsmrStep
  rw [lsmrBidiagD_eq hk hA hM hN, bind_map, map_bind]
  refine bind_congr' fun ⟨Mu, Nv, v, alpha, beta, products⟩ => ?_
  rw [bind_map]
  refine bind_congr' fun r => ?_
  simp only [lsmrVectorsD_eq, bind_map, map_bind]
  refine bind_congr' fun ⟨hbar, x, h⟩ => ?_
  refine bind_congr' fun j => ?_
  refine bind_congr' fun ⟨betadd, thetatilde, rhodold, betad, tautildeold, d, normr⟩ => ?_
  refine bind_congr' fun condA => ?_
  simp only [real_norm]
  refine bind_congr' fun tests => ?_
  simp only [pure_map, LsmrLoop.typed, Nat.add_eq_zero_iff, one_ne_zero, and_false, if_false]
  congr 2
  cases hs : kw.storeIterates <;> simp [LsmrKw.typed, hs]

theorem lsmrLoopD_eq (hk : k ≠ .complex) (hA : A.dtype ≠ .complex) (hM : kw.M ≠ none → kM ≠ .complex)
    (hN : kw.N ≠ none → kN ≠ .complex) (lim : Int) (normb : S) (s : LsmrLoop S U V) :
    lsmrLoopD A (kw.typed kM kN) lim normb (s.typed k) = (lsmrLoop A.fn A.tfn kw lim normb s).map (LsmrLoop.typed k) :=
  exceptLoop_map (LsmrLoop.typed k) (fun _ => rfl) (lsmrStepD_eq hk hA hM hN lim normb) s

theorem lsmrStart_typed (beta : S) (Mu : U) (Nv : Option V) (v : V) (alpha : S) (products : Nat) :
    lsmrStart (kw.typed kM kN) beta ⟨k, Mu⟩ (Nv.map DArr.real) (DArr.real v) alpha products =
      (lsmrStart kw beta Mu Nv v alpha products).typed k := by
  unfold lsmrStart LsmrLoop.typed
  congr 1
  cases hs : kw.storeIterates <;> simp [LsmrKw.typed, hs, real_zeros]

theorem lsmrInitD_eq (hc : ¬ ComplexRhs k kM kw.M) (b : U) (hn : Narrow A k kN kw.N → ¬ BetaPos kw.M b) :
    lsmrInitD A (kw.typed kM kN) ⟨k, b⟩ = (lsmrInit A.tfn kw b).map (LsmrLoop.typed k) := by
  unfold lsmrInitD lsmrInit
  simp only
  rw [show (kw.typed kM kN).M = dprecon kM kw.M from rfl, show (kw.typed kM kN).N = dprecon kN kw.N from rfl, first_sqrt hc, bind_map]
  cases hp : pysqrt (dot (applyPrecon kw.M b) b) with
  | error e => rfl
  | ok beta =>
    rw [ok_bind, ok_bind, map_ite]
    by_cases hg : gt beta (lit 0) = true
    · have hn' : ¬ Narrow A k kN kw.N := fun h => hn h ⟨beta, hp, hg⟩
      obtain ⟨rfl, hA, hN⟩ := not_narrow hn' (not_complexRhs_kind hc)
      have hM := not_complexRhs_precon hc
      have e : (⟨DKind.real, b⟩ : DArr U) = DArr.real b := rfl
      simp only [hg, if_true, e, real_precon hM, real_idiv, ok_bind, DOp.tmul_real hA, real_precon hN, real_dsqrt, bind_map, map_ite,
        pure_map, ← lsmrStart_typed (kM := kM) (kN := kN), Option.map_some, Option.map_none]
      rfl
    · rw [if_neg hg, if_neg hg]
      simp only [pure_map, ← lsmrStart_typed (kM := kM) (kN := kN), Option.map_none, real_zeros]

theorem lsmrInitD_raises (b : U) (h : ComplexRhs k kM kw.M ∨ (Narrow A k kN kw.N ∧ BetaPos kw.M b)) :
    lsmrInitD A (kw.typed kM kN) ⟨k, b⟩ = .error .typeError := by
  unfold lsmrInitD
  simp only
  rw [show (kw.typed kM kN).M = dprecon kM kw.M from rfl, show (kw.typed kM kN).N = dprecon kN kw.N from rfl]
  by_cases hc : ComplexRhs k kM kw.M
  · rw [first_complex hc]
    rfl
  · obtain ⟨hn, beta, hp, hg⟩ := h.resolve_left hc
    rw [first_sqrt hc, hp, ok_bind, if_pos hg]
    cases k with
    | int => exact int_idiv beta b _ hc
    | complex => exact absurd (Or.inl rfl) hc
    | real =>
      have e : (⟨DKind.real, b⟩ : DArr U) = DArr.real b := rfl
      rw [e, real_precon (not_complexRhs_precon hc), real_idiv, ok_bind, real_idiv, ok_bind,
        second_complex (hn.resolve_left (by simp))]
      rfl

end

/-! ### CRAIG -/

/-- the state with arrays of floats; `Mu`, which holds the right-hand side before the loop, has the dtype `k` then -/
def CraigLoop.typed (k : DKind) (s : CraigLoop S U V) : CraigLoop S (DArr U) (DArr V) :=
  { x := DArr.real s.x, r := DArr.real s.r, Mu := ⟨if s.itn = 0 then k else .real, s.Mu⟩, Nv := DArr.real s.Nv, v := DArr.real s.v,
    alpha := s.alpha, beta := s.beta, c := s.c, s := s.s, d := DArr.real s.d, tau := s.tau, zeta := s.zeta, w := DArr.real s.w,
    wbar := DArr.real s.wbar, rnorm := s.rnorm, xnorm := s.xnorm, r1norm := s.r1norm, rNrgNorm2 := s.rNrgNorm2,
    xNrgNorm2 := s.xNrgNorm2, dErr := s.dErr, Arnorm := s.Arnorm, istop := s.istop, itn := s.itn, resids := s.resids,
    norms := s.norms, normalEqns := s.normalEqns, dirErrors := s.dirErrors, iteratesP := s.iteratesP.map DArr.real,
    iteratesD := s.iteratesD.map DArr.real, products := s.products }

section
variable {A : DOp U V} {kM kN k : DKind} {kw : CraigKw S U V}

theorem craigBidiagD_eq (hk : k ≠ .complex) (hA : A.dtype ≠ .complex) (hM : kw.M ≠ none → kM ≠ .complex)
    (hN : kw.N ≠ none → kN ≠ .complex) (s : CraigLoop S U V) :
    craigBidiagD A (kw.typed kM kN) (s.typed k) =
      (craigBidiag A.fn A.tfn kw s).map fun r => (DArr.real r.1, DArr.real r.2.1, DArr.real r.2.2.1, DArr.real r.2.2.2.1, r.2.2.2.2) := by
  have hk' : (if s.itn = 0 then k else DKind.real) ≠ .complex := by split <;> simp_all
  unfold craigBidiagD craigBidiag
  simp only [CraigLoop.typed, CraigKw.typed, DOp.mul_real hA, any_smul hk', real_sub, real_precon hM, real_dsqrt, real_idiv, ok_bind,
    bound_map, map_bind, DOp.tmul_real hA, real_smul, real_precon hN, bind_map, map_ite, pure_map, Option.map_some]

theorem craigStepD_eq (hk : k ≠ .complex) (hA : A.dtype ≠ .complex) (hM : kw.M ≠ none → kM ≠ .complex)
    (hN : kw.N ≠ none → kN ≠ .complex) (lim : Int) (bnorm : S) (s : CraigLoop S U V) :
    craigStepD A (kw.typed kM kN) lim bnorm (s.typed k) = (craigStep A.fn A.tfn kw lim bnorm s).map (CraigLoop.typed k) := by
  unfold craigStepD craigStep
  rw [craigBidiagD_eq hk hA hM hN, bind_map, map_bind]
  refine bind_congr' fun ⟨Mu, u, Nv, v, alpha, beta, products⟩ => ?_
  rw [bind_map]
  refine bind_congr' fun ⟨betaHat, alphaHat, s2, c, sn⟩ => ?_
  rw [bind_map]
  refine bind_congr' fun tau => ?_
  simp only [show (s.typed k).x = DArr.real s.x from rfl, show (s.typed k).r = DArr.real s.r from rfl,
    show (s.typed k).d = DArr.real s.d from rfl, show (s.typed k).wbar = DArr.real s.wbar from rfl,
    real_smul, real_sub, real_vdiv, real_add, real_iadd, real_imul, ok_bind, bind_map]
  refine bind_congr' fun zeta => ?_
  refine bind_congr' fun j => ?_
  refine bind_congr' fun test1 => ?_
  simp only [pure_map, CraigLoop.typed, Nat.add_eq_zero_iff, one_ne_zero, and_false, if_false]
  congr 2
  all_goals cases hs : kw.storeIterates <;> simp [CraigKw.typed, hs]

theorem craigLoopD_eq (hk : k ≠ .complex) (hA : A.dtype ≠ .complex) (hM : kw.M ≠ none → kM ≠ .complex)
    (hN : kw.N ≠ none → kN ≠ .complex) (lim : Int) (bnorm : S) (s : CraigLoop S U V) :
    craigLoopD A (kw.typed kM kN) lim bnorm (s.typed k) = (craigLoop A.fn A.tfn kw lim bnorm s).map (CraigLoop.typed k) :=
  exceptLoop_map (CraigLoop.typed k) (fun _ => rfl) (craigStepD_eq hk hA hM hN lim bnorm) s

/-- the first vectors with arrays of floats; `Mu` and `u` keep the dtype of the right-hand side if they are not divided -/
def craigFirst (k l : DKind) (p : U × U × S × Option (V × V) × S × Nat) :
    DArr U × DArr U × S × Option (DArr V × DArr V) × S × Nat :=
  (⟨k, p.1⟩, ⟨l, p.2.1⟩, p.2.2.1, p.2.2.2.1.map fun q => (DArr.real q.1, DArr.real q.2), p.2.2.2.2)

theorem craigVectorsD_eq (hc : ¬ ComplexRhs k kM kw.M) (b : U) (hn : Narrow A k kN kw.N → ¬ BetaPos kw.M b) :
    ∃ l, l ≠ .complex ∧ craigVectorsD A (kw.typed kM kN) ⟨k, b⟩ = (craigVectors A.tfn kw b).map (craigFirst k l) := by
  unfold craigVectorsD craigVectors
  simp only
  rw [show (kw.typed kM kN).M = dprecon kM kw.M from rfl, show (kw.typed kM kN).N = dprecon kN kw.N from rfl, first_sqrt hc]
  cases hp : pysqrt (dot (applyPrecon kw.M b) b) with
  | error e => exact ⟨.real, by simp, rfl⟩
  | ok beta =>
    rw [ok_bind, ok_bind]
    by_cases hg : gt beta (lit 0) = true
    · have hn' : ¬ Narrow A k kN kw.N := fun h => hn h ⟨beta, hp, hg⟩
      obtain ⟨rfl, hA, hN⟩ := not_narrow hn' (not_complexRhs_kind hc)
      have hM := not_complexRhs_precon hc
      have e : (⟨DKind.real, b⟩ : DArr U) = DArr.real b := rfl
      refine ⟨.real, by simp, ?_⟩
      simp only [hg, if_true, e, real_precon hM, real_idiv, ok_bind, DOp.tmul_real hA, real_precon hN, real_dsqrt, bind_map, map_ite,
        pure_map, craigFirst, Option.map_some]
      rfl
    · rw [if_neg hg, if_neg hg]
      cases hM : kw.M with
      | none => exact ⟨k, not_complexRhs_kind hc, rfl⟩
      | some f =>
        refine ⟨kM.join k, DKind.join_not (not_complexRhs_precon hc (by simp [hM])) (not_complexRhs_kind hc), rfl⟩

theorem craigVectorsD_raises (b : U) (h : ComplexRhs k kM kw.M ∨ (Narrow A k kN kw.N ∧ BetaPos kw.M b)) :
    craigVectorsD A (kw.typed kM kN) ⟨k, b⟩ = .error .typeError := by
  unfold craigVectorsD
  simp only
  rw [show (kw.typed kM kN).M = dprecon kM kw.M from rfl, show (kw.typed kM kN).N = dprecon kN kw.N from rfl]
  by_cases hc : ComplexRhs k kM kw.M
  · rw [first_complex hc]
    rfl
  · obtain ⟨hn, beta, hp, hg⟩ := h.resolve_left hc
    rw [first_sqrt hc, hp, ok_bind, if_pos hg]
    cases k with
    | int => exact int_idiv beta b _ hc
    | complex => exact absurd (Or.inl rfl) hc
    | real =>
      have e : (⟨DKind.real, b⟩ : DArr U) = DArr.real b := rfl
      rw [e, real_precon (not_complexRhs_precon hc), real_idiv, ok_bind, real_idiv, ok_bind,
        second_complex (hn.resolve_left (by simp))]
      rfl

theorem craigVectors_unbound {AT : U → V} {b Mu u : U} {beta alpha : S} {vs : Option (V × V)} {products : Nat}
    (hb : ¬ BetaPos kw.M b) (h : craigVectors AT kw b = .ok (Mu, u, beta, vs, alpha, products)) : vs = none := by
  unfold craigVectors at h
  obtain ⟨beta, hp, h⟩ := except_bind_ok h
  have hg : ¬ gt beta (lit 0) = true := fun hg => hb ⟨beta, hp, hg⟩
  simp only [if_neg hg] at h
  cases h
  rfl

theorem craigStart_unbound {Mu u : U} {beta alpha : S} {products : Nat} {s : CraigLoop S U V}
    (h : craigStart kw Mu u beta none alpha products = .ok s) : False := by
  unfold craigStart at h
  obtain ⟨_, -, h⟩ := except_bind_ok h
  obtain ⟨_, -, h⟩ := except_bind_ok h
  obtain ⟨_, -, h⟩ := except_bind_ok h
  obtain ⟨_, h1, -⟩ := except_bind_ok h
  cases h1

theorem craigStart_typed {l : DKind} (hl : l ≠ .complex) (Mu u : U) (beta : S) (vs : Option (V × V)) (alpha : S) (products : Nat) :
    craigStart (kw.typed kM kN) ⟨k, Mu⟩ ⟨l, u⟩ beta (vs.map fun q => (DArr.real q.1, DArr.real q.2)) alpha products =
      (craigStart kw Mu u beta vs alpha products).map (CraigLoop.typed k) := by
  unfold craigStart
  simp only [bind_map, bound_map, map_bind, any_vdiv hl, real_smul]
  refine bind_congr' fun tau => bind_congr' fun c => bind_congr' fun s => bind_congr' fun vs => ?_
  simp only [pure_map, CraigLoop.typed, if_true]
  congr 2
  all_goals cases hs : kw.storeIterates <;> simp [CraigKw.typed, hs]

theorem craigResult_typed (s : CraigLoop S U V) : craigResult (s.typed k) = (craigResult s).map CraigRes.typed := by
  unfold craigResult
  rw [bind_map]
  rfl

end

/-! ### CRAIG-MR -/

/-- the state with arrays of floats; `Mu`, which holds the right-hand side before the loop, has the dtype `k` then -/
def CraigmrLoop.typed (k : DKind) (s : CraigmrLoop S U V) : CraigmrLoop S (DArr U) (DArr V) :=
  { x := DArr.real s.x, Mu := ⟨if s.itn = 0 then k else .real, s.Mu⟩, Nv := s.Nv.map DArr.real, v := DArr.real s.v, alpha := s.alpha,
    c := s.c, s := s.s, d := DArr.real s.d, dbar := DArr.real s.dbar, theta := s.theta, alphaTilde := s.alphaTilde,
    zetaHat := s.zetaHat, xNrgNorm2 := s.xNrgNorm2, dErr := s.dErr, istop := s.istop, itn := s.itn, norms := s.norms,
    normalEqns := s.normalEqns, dirErrors := s.dirErrors, iterates := s.iterates.map DArr.real, products := s.products }

section
variable {A : DOp U V} {kM kN k : DKind} {kw : CraigmrKw S U V}

theorem craigmrBidiagD_eq (hk : k ≠ .complex) (hA : A.dtype ≠ .complex) (hM : kw.M ≠ none → kM ≠ .complex)
    (hN : kw.N ≠ none → kN ≠ .complex) (s : CraigmrLoop S U V) :
    craigmrBidiagD A (kw.typed kM kN) (s.typed k) =
      (craigmrBidiag A.fn A.tfn kw s).map fun r => (DArr.real r.1, DArr.real r.2.1, r.2.2.1.map DArr.real, DArr.real r.2.2.2.1, r.2.2.2.2) := by
  have hk' : (if s.itn = 0 then k else DKind.real) ≠ .complex := by split <;> simp_all
  unfold craigmrBidiagD craigmrBidiag
  simp only [CraigmrLoop.typed, CraigmrKw.typed, DOp.mul_real hA, any_smul hk', real_sub, real_precon hM, real_dsqrt, real_idiv, ok_bind,
    bound_map, map_bind, DOp.tmul_real hA, real_smul, real_precon hN, bind_map, map_ite, pure_map, Option.map_some]

theorem craigmrStepD_eq (hk : k ≠ .complex) (hA : A.dtype ≠ .complex) (hM : kw.M ≠ none → kM ≠ .complex)
    (hN : kw.N ≠ none → kN ≠ .complex) (lim : Int) (s : CraigmrLoop S U V) :
    craigmrStepD A (kw.typed kM kN) lim (s.typed k) = (craigmrStep A.fn A.tfn kw lim s).map (CraigmrLoop.typed k) := by
  unfold craigmrStepD craigmrStep
  rw [craigmrBidiagD_eq hk hA hM hN, bind_map, map_bind]
  refine bind_congr' fun ⟨Mu, u, Nv, v, alpha, beta, products⟩ => ?_
  rw [bind_map]
  refine bind_congr' fun ⟨betaHat, alphaHat, c, sn⟩ => ?_
  rw [bind_map]
  refine bind_congr' fun cHat => ?_
  rw [bind_map]
  refine bind_congr' fun sHat => ?_
  simp only [show (s.typed k).x = DArr.real s.x from rfl, show (s.typed k).d = DArr.real s.d from rfl,
    show (s.typed k).dbar = DArr.real s.dbar from rfl, real_smul, real_sub, real_vdiv, real_iadd, ok_bind, bind_map]
  refine bind_congr' fun j => ?_
  simp only [pure_map, CraigmrLoop.typed, Nat.add_eq_zero_iff, one_ne_zero, and_false, if_false]
  congr 2
  cases hs : kw.storeIterates <;> simp [CraigmrKw.typed, hs]

theorem craigmrLoopD_eq (hk : k ≠ .complex) (hA : A.dtype ≠ .complex) (hM : kw.M ≠ none → kM ≠ .complex)
    (hN : kw.N ≠ none → kN ≠ .complex) (lim : Int) (s : CraigmrLoop S U V) :
    craigmrLoopD A (kw.typed kM kN) lim (s.typed k) = (craigmrLoop A.fn A.tfn kw lim s).map (CraigmrLoop.typed k) :=
  exceptLoop_map (CraigmrLoop.typed k) (fun _ => rfl) (craigmrStepD_eq hk hA hM hN lim) s

/-- the first vectors with arrays of floats; `Mu` and `u` keep the dtype of the right-hand side if they are not divided -/
def craigmrFirst (k l : DKind) (p : U × U × S × Option V × V × S × Nat) :
    DArr U × DArr U × S × Option (DArr V) × DArr V × S × Nat :=
  (⟨k, p.1⟩, ⟨l, p.2.1⟩, p.2.2.1, p.2.2.2.1.map DArr.real, DArr.real p.2.2.2.2.1, p.2.2.2.2.2)

theorem craigmrVectorsD_eq (hc : ¬ ComplexRhs k kM kw.M) (b : U) (hn : Narrow A k kN kw.N → ¬ BetaPos kw.M b) :
    ∃ l, l ≠ .complex ∧ craigmrVectorsD A (kw.typed kM kN) ⟨k, b⟩ = (craigmrVectors A.tfn kw b).map (craigmrFirst k l) := by
  unfold craigmrVectorsD craigmrVectors
  simp only
  rw [show (kw.typed kM kN).M = dprecon kM kw.M from rfl, show (kw.typed kM kN).N = dprecon kN kw.N from rfl, first_sqrt hc]
  cases hp : pysqrt (dot (applyPrecon kw.M b) b) with
  | error e => exact ⟨.real, by simp, rfl⟩
  | ok beta =>
    rw [ok_bind, ok_bind]
    by_cases hg : gt beta (lit 0) = true
    · have hn' : ¬ Narrow A k kN kw.N := fun h => hn h ⟨beta, hp, hg⟩
      obtain ⟨rfl, hA, hN⟩ := not_narrow hn' (not_complexRhs_kind hc)
      have hM := not_complexRhs_precon hc
      have e : (⟨DKind.real, b⟩ : DArr U) = DArr.real b := rfl
      refine ⟨.real, by simp, ?_⟩
      simp only [hg, if_true, e, real_precon hM, real_idiv, ok_bind, DOp.tmul_real hA, real_precon hN, real_dsqrt, bind_map, map_ite,
        pure_map, craigmrFirst, Option.map_some]
      rfl
    · rw [if_neg hg, if_neg hg]
      cases hM : kw.M with
      | none => exact ⟨k, not_complexRhs_kind hc, rfl⟩
      | some f =>
        refine ⟨kM.join k, DKind.join_not (not_complexRhs_precon hc (by simp [hM])) (not_complexRhs_kind hc), rfl⟩

theorem craigmrVectorsD_raises (b : U) (h : ComplexRhs k kM kw.M ∨ (Narrow A k kN kw.N ∧ BetaPos kw.M b)) :
    craigmrVectorsD A (kw.typed kM kN) ⟨k, b⟩ = .error .typeError := by
  unfold craigmrVectorsD
  simp only
  rw [show (kw.typed kM kN).M = dprecon kM kw.M from rfl, show (kw.typed kM kN).N = dprecon kN kw.N from rfl]
  by_cases hc : ComplexRhs k kM kw.M
  · rw [first_complex hc]
    rfl
  · obtain ⟨hn, beta, hp, hg⟩ := h.resolve_left hc
    rw [first_sqrt hc, hp, ok_bind, if_pos hg]
    cases k with
    | int => exact int_idiv beta b _ hc
    | complex => exact absurd (Or.inl rfl) hc
    | real =>
      have e : (⟨DKind.real, b⟩ : DArr U) = DArr.real b := rfl
      rw [e, real_precon (not_complexRhs_precon hc), real_idiv, ok_bind, real_idiv, ok_bind,
        second_complex (hn.resolve_left (by simp))]
      rfl

theorem craigmrStart_typed {l : DKind} (hl : l ≠ .complex) (Mu u : U) (beta : S) (Nv : Option V) (v : V) (alpha : S) (products : Nat) :
    craigmrStart (kw.typed kM kN) ⟨k, Mu⟩ ⟨l, u⟩ beta (Nv.map DArr.real) (DArr.real v) alpha products =
      (craigmrStart kw Mu u beta Nv v alpha products).map (CraigmrLoop.typed k) := by
  unfold craigmrStart
  simp only [bind_map, any_vdiv hl]
  refine bind_congr' fun c => bind_congr' fun s => ?_
  simp only [pure_map, CraigmrLoop.typed, if_true]
  congr 2
  cases hs : kw.storeIterates <;> simp [CraigmrKw.typed, hs, real_zeros]

end

end Verif.Solver
