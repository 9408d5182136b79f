import Verif.Solver.TypedMinres
import Verif.Solver.TypedMath

/-! # Lemmas on MINRES with dtypes -/

set_option linter.unusedSectionVars false

namespace Verif.Solver
open Scalar Vect Linop

variable {S V : Type} [Scalar S] [Vect S V]

/-- the state without dtypes -/
def MinresLoop.noKinds (s : MinresLoop S (DArr V)) : MinresLoop S V :=
  { x := s.x.val, y := s.y.val, r1 := s.r1.val, r2 := s.r2.val, w := s.w.val, w2 := s.w2.val, oldb := s.oldb, beta := s.beta,
    dbar := s.dbar, epsln := s.epsln, phibar := s.phibar, rhs1 := s.rhs1, rhs2 := s.rhs2, tnorm2 := s.tnorm2, ynorm2 := s.ynorm2,
    cs := s.cs, sn := s.sn, gmax := s.gmax, gmin := s.gmin, xNrgNorm2 := s.xNrgNorm2, dErr := s.dErr, Anorm := s.Anorm,
    Acond := s.Acond, rnorm := s.rnorm, ynorm := s.ynorm, Arnorm := s.Arnorm, istop := s.istop, itn := s.itn, broke := s.broke,
    residHistory := s.residHistory, dirErrors := s.dirErrors, iterates := s.iterates.map DArr.val, calls := s.calls.map DArr.val }

/-- no array is complex, and `x` and the stored iterates have the class `kx` -/
structure MinresKinds (kx : DKind) (s : MinresLoop S (DArr V)) : Prop where
  x : s.x.kind = kx
  y : s.y.kind ≠ .complex
  r1 : s.r1.kind ≠ .complex
  r2 : s.r2.kind ≠ .complex
  w : s.w.kind ≠ .complex
  w2 : s.w2.kind ≠ .complex
  iterates : ∀ u ∈ s.iterates, u.kind = kx

section
variable {kA kM : DKind} {op : V → V} {eps : S} {kw : MinresKw S V} {itnlim : Nat} {beta1 : S} {s : MinresLoop S (DArr V)}

theorem dprecon_val (b : DArr V) : (applyPrecon (dprecon kM kw.precon) b).val = applyPrecon kw.precon b.val := by
  cases kw.precon <;> rfl

theorem dprecon_kind (hM : kw.precon ≠ none → kM ≠ .complex) {b : DArr V} (hb : b.kind ≠ .complex) :
    (applyPrecon (dprecon kM kw.precon) b).kind ≠ .complex := by
  cases h : kw.precon with
  | none => exact hb
  | some f =>
    have hM := hM (by simp [h])
    change kM.join b.kind ≠ .complex
    generalize b.kind = k at hb
    cases k <;> cases kM <;> simp_all [DKind.join]

theorem lanczos_val (itn : Nat) :
    let r := minresLanczos (dfun kA op) (kw.typed kM) itn s
    let q := minresLanczos op kw itn s.noKinds
    r.1.val = q.1 ∧ r.2.1 = q.2.1 ∧ r.2.2.1.val = q.2.2.1 ∧ r.2.2.2.1.val = q.2.2.2.1 ∧ r.2.2.2.2 = q.2.2.2.2 := by
  unfold minresLanczos
  by_cases h : itn ≥ 2
  · simp only [h, if_true]
    refine ⟨rfl, rfl, rfl, dprecon_val _, ?_⟩
    exact congrArg (dot _) (dprecon_val _)
  · simp only [h, if_false]
    refine ⟨rfl, rfl, rfl, dprecon_val _, ?_⟩
    exact congrArg (dot _) (dprecon_val _)

theorem smul_kind (a : S) {u : DArr V} (h : u.kind ≠ .complex) : (smul a u : DArr V).kind = .real := by
  change DKind.real.join u.kind = _
  generalize u.kind = k at h
  cases k <;> simp_all [DKind.join]

theorem sub_kind {u v : DArr V} (h : u.kind = .real) (h' : v.kind ≠ .complex) : (u - v).kind = .real := by
  change u.kind.join v.kind = _
  rw [h]
  generalize v.kind = k at h'
  cases k <;> simp_all [DKind.join]

theorem add_kind {u v : DArr V} (h : u.kind = .real) (h' : v.kind ≠ .complex) : (u + v).kind = .real := sub_kind h h'

theorem dfun_kind (hA : kA ≠ .complex) {u : DArr V} (h : u.kind = .real) : (dfun kA op u).kind = .real := by
  change kA.join u.kind = _
  rw [h]
  cases kA <;> simp_all [DKind.join]

theorem not_complex {u : DArr V} (h : u.kind = .real) : u.kind ≠ .complex := by rw [h]; simp

theorem lanczos_kinds {kx : DKind} (hA : kA ≠ .complex) (hM : kw.precon ≠ none → kM ≠ .complex) (hs : MinresKinds kx s) (itn : Nat) :
    let r := minresLanczos (dfun kA op) (kw.typed kM) itn s
    r.1.kind = .real ∧ r.2.2.1.kind = .real ∧ r.2.2.2.1.kind ≠ .complex := by
  have hv : (smul (lit 1 / s.beta) s.y : DArr V).kind = .real := smul_kind _ hs.y
  have h1 : (dfun kA op (smul (lit 1 / s.beta) s.y) - smul kw.shift (smul (lit 1 / s.beta) s.y) : DArr V).kind = .real :=
    sub_kind (dfun_kind hA hv) (not_complex (smul_kind _ (not_complex hv)))
  unfold minresLanczos
  by_cases h : itn ≥ 2
  · simp only [h, if_true]
    have h2 := sub_kind h1 (not_complex (smul_kind (s.beta / s.oldb) hs.r1))
    have h3 : ∀ a : S, (smul a s.r2 + (dfun kA op (smul (lit 1 / s.beta) s.y) - smul kw.shift (smul (lit 1 / s.beta) s.y) -
        smul (s.beta / s.oldb) s.r1) : DArr V).kind = .real := fun a => add_kind (smul_kind a hs.r2) (not_complex h2)
    exact ⟨hv, h3 _, dprecon_kind hM (not_complex (h3 _))⟩
  · simp only [h, if_false]
    have h3 : ∀ a : S, (smul a s.r2 + (dfun kA op (smul (lit 1 / s.beta) s.y) - smul kw.shift (smul (lit 1 / s.beta) s.y)) :
        DArr V).kind = .real := fun a => add_kind (smul_kind a hs.r2) (not_complex h1)
    exact ⟨hv, h3 _, dprecon_kind hM (not_complex (h3 _))⟩

/-- with `x` an array of floats an iteration raises nothing -/
theorem minresStepD_ok (hA : kA ≠ .complex) (hM : kw.precon ≠ none → kM ≠ .complex) (hw : kw.window ≠ 0)
    (hs : MinresKinds .real s) :
    ∃ t, minresStepD (dfun kA op) eps (kw.typed kM) itnlim beta1 s = .ok t ∧ MinresKinds .real t ∧
      t.noKinds = minresStep op eps kw itnlim beta1 s.noKinds := by
  obtain ⟨e1, e2, e3, e4, e5⟩ := lanczos_val (kA := kA) (kM := kM) (op := op) (kw := kw) (s := s) (s.itn + 1)
  obtain ⟨k1, k2, k3⟩ := lanczos_kinds (op := op) hA hM hs (s.itn + 1)
  unfold minresStepD minresStep
  simp only
  rw [show (s.noKinds).itn = s.itn from rfl]
  revert e1 e2 e3 e4 e5 k1 k2 k3
  generalize minresLanczos (dfun kA op) (kw.typed kM) (s.itn + 1) s = r
  generalize minresLanczos op kw (s.itn + 1) s.noKinds = q
  obtain ⟨v, alfa, r2, y, bb⟩ := r
  obtain ⟨v', alfa', r2', y', bb'⟩ := q
  rintro e1 e2 e3 e4 e5 k1 k2 k3
  simp only at e1 e2 e3 e4 e5 k1 k2 k3
  subst e1 e2 e3 e4 e5
  by_cases hb : lt bb (lit 0) = true
  · simp only [hb, if_true]
    refine ⟨_, rfl, ⟨hs.x, hs.y, hs.r1, hs.r2, hs.w, hs.w2, hs.iterates⟩, ?_⟩
    simp [MinresLoop.noKinds]
  · simp only [hb, if_false]
    have kw' : ∀ a b c : S, (smul a (v - smul b s.w2 - smul c s.w) : DArr V).kind = .real := fun a b c =>
      smul_kind a (not_complex (sub_kind (sub_kind k1 (not_complex (smul_kind b hs.w2))) (not_complex (smul_kind c hs.w))))
    have ki : ∀ a b c d : S, s.x.iadd (smul d (smul a (v - smul b s.w2 - smul c s.w))) =
        .ok ⟨.real, s.x.val + smul d (smul a (v.val - smul b s.w2.val - smul c s.w.val))⟩ := by
      intro a b c d
      have kd : (smul d (smul a (v - smul b s.w2 - smul c s.w)) : DArr V).kind = .real := smul_kind d (not_complex (kw' a b c))
      unfold DArr.iadd
      rw [kd, hs.x]
      rfl
    have kp : pymod (s.itn + 1) (kw.typed kM).window = .ok ((s.itn + 1) % kw.window) := if_neg hw
    simp only [ki, kp, Bool.false_eq_true, if_false]
    refine ⟨_, rfl, ⟨rfl, k3, hs.r2, not_complex k2, not_complex (kw' _ _ _), hs.w, ?_⟩, ?_⟩
    · intro u hu
      simp only at hu
      split at hu
      · rcases List.mem_append.1 hu with hu | hu
        · exact hs.iterates u hu
        · rw [List.mem_singleton.1 hu]
      · exact hs.iterates u hu
    · cases hst : kw.storeIterates <;> simp [MinresLoop.noKinds, MinresKw.typed, hst] <;> rfl

/-- the first iteration, unless it ends with `break`, raises `TypeError` if `x` holds integers -/
theorem minresStepD_int (hA : kA ≠ .complex) (hM : kw.precon ≠ none → kM ≠ .complex) (hs : MinresKinds .int s)
    (hb : lt (minresLanczos op kw (s.itn + 1) s.noKinds).2.2.2.2 (lit 0) = false) :
    minresStepD (dfun kA op) eps (kw.typed kM) itnlim beta1 s = .error .typeError := by
  obtain ⟨-, -, -, -, e5⟩ := lanczos_val (kA := kA) (kM := kM) (op := op) (kw := kw) (s := s) (s.itn + 1)
  obtain ⟨k1, k2, k3⟩ := lanczos_kinds (op := op) hA hM hs (s.itn + 1)
  rw [← e5] at hb
  unfold minresStepD
  simp only
  revert hb k1 k2 k3
  generalize minresLanczos (dfun kA op) (kw.typed kM) (s.itn + 1) s = r
  obtain ⟨v, alfa, r2, y, bb⟩ := r
  intro hb k1 k2 k3
  simp only at hb k1 k2 k3
  simp only [hb, Bool.false_eq_true, if_false]
  have ki : ∀ a b c d : S, s.x.iadd (smul d (smul a (v - smul b s.w2 - smul c s.w))) = .error .typeError := by
    intro a b c d
    have kd : (smul d (smul a (v - smul b s.w2 - smul c s.w)) : DArr V).kind = .real :=
      smul_kind d (not_complex (smul_kind a (not_complex (sub_kind (sub_kind k1 (not_complex (smul_kind b hs.w2)))
        (not_complex (smul_kind c hs.w))))))
    unfold DArr.iadd
    rw [kd, hs.x]
    rfl
  rw [ki]
  rfl

/-- a first iteration that ends with `break` -/
theorem minresStepD_break (hb : lt (minresLanczos op kw (s.itn + 1) s.noKinds).2.2.2.2 (lit 0) = true) :
    ∃ t, minresStepD (dfun kA op) eps (kw.typed kM) itnlim beta1 s = .ok t ∧ t.x = s.x ∧ t.iterates = s.iterates ∧ t.broke = true ∧
      t.noKinds = minresStep op eps kw itnlim beta1 s.noKinds := by
  obtain ⟨e1, -, -, -, e5⟩ := lanczos_val (kA := kA) (kM := kM) (op := op) (kw := kw) (s := s) (s.itn + 1)
  unfold minresStepD minresStep
  simp only
  rw [show (s.noKinds).itn = s.itn from rfl]
  have hb' := hb
  rw [← e5] at hb'
  revert e1 e5 hb hb'
  generalize minresLanczos (dfun kA op) (kw.typed kM) (s.itn + 1) s = r
  generalize minresLanczos op kw (s.itn + 1) s.noKinds = q
  obtain ⟨v, alfa, r2, y, bb⟩ := r
  obtain ⟨v', alfa', r2', y', bb'⟩ := q
  rintro hb e1 e5 hb'
  simp only at e1 e5 hb hb'
  simp only [hb, hb', if_true]
  refine ⟨_, rfl, rfl, rfl, rfl, ?_⟩
  subst e1
  simp [MinresLoop.noKinds]

/-- without a window an iteration that does not end with `break` raises -/
theorem minresStepD_window (hA : kA ≠ .complex) (hM : kw.precon ≠ none → kM ≠ .complex) (hw : kw.window = 0) (hs : MinresKinds .real s)
    (hb : lt (minresLanczos op kw (s.itn + 1) s.noKinds).2.2.2.2 (lit 0) = false) :
    minresStepD (dfun kA op) eps (kw.typed kM) itnlim beta1 s = .error .zeroDivision := by
  obtain ⟨-, -, -, -, e5⟩ := lanczos_val (kA := kA) (kM := kM) (op := op) (kw := kw) (s := s) (s.itn + 1)
  obtain ⟨k1, k2, k3⟩ := lanczos_kinds (op := op) hA hM hs (s.itn + 1)
  rw [← e5] at hb
  unfold minresStepD
  simp only
  revert hb k1 k2 k3
  generalize minresLanczos (dfun kA op) (kw.typed kM) (s.itn + 1) s = r
  obtain ⟨v, alfa, r2, y, bb⟩ := r
  intro hb k1 k2 k3
  simp only at hb k1 k2 k3
  simp only [hb, Bool.false_eq_true, if_false]
  have ki : ∀ a b c d : S, ∃ x, s.x.iadd (smul d (smul a (v - smul b s.w2 - smul c s.w))) = .ok x := by
    intro a b c d
    have kd : (smul d (smul a (v - smul b s.w2 - smul c s.w)) : DArr V).kind = .real :=
      smul_kind d (not_complex (smul_kind a (not_complex (sub_kind (sub_kind k1 (not_complex (smul_kind b hs.w2)))
        (not_complex (smul_kind c hs.w))))))
    unfold DArr.iadd
    rw [kd, hs.x]
    exact ⟨_, rfl⟩
  have kp : pymod (s.itn + 1) (kw.typed kM).window = .error .zeroDivision := if_pos hw
  generalize hg : DArr.iadd s.x _ = g
  obtain ⟨x, hx⟩ := ki (lit 1 / pymax (normof2 (s.sn * s.dbar - s.cs * alfa) (sqrt bb)) eps) s.epsln (s.cs * s.dbar + s.sn * alfa)
    ((s.sn * s.dbar - s.cs * alfa) / pymax (normof2 (s.sn * s.dbar - s.cs * alfa) (sqrt bb)) eps * s.phibar)
  rw [hx] at hg
  rw [← hg, kp]
  rfl

end

end Verif.Solver
