import Verif.Linop.Grow
import Verif.Linop.Div
import Verif.Linop.Instances

/-!
# Properties C01-C12, C15 of the operator algebra

`Reach cs env h mats` : running the client program `cs` from the empty heap succeeded with variables `env` and
heap `h`, and the same program on plain matrices gives `mats`.
-/

set_option linter.unusedSectionVars false

namespace Verif.Linop

variable {K : Type} [CommRing K] [StarRing K] [DTypes K]

section
variable [DecidableEq K]

/-- A state a program can reach by meaningful API calls, with the matrices its variables stand for. -/
def Reach (env : List Nat) (h : Heap K) (mats : List (Mat K)) : Prop :=
  ∃ cs, WFAll [] cs ∧ execAll cs ([], []) = .ok (env, h) ∧ specAll cs [] = .ok mats

/-- The same for programs whose user-defined operators are complete. -/
def ReachTotal (env : List Nat) (h : Heap K) (mats : List (Mat K)) : Prop :=
  ∃ cs, WFAll [] cs ∧ (∀ c ∈ cs, c.Complete) ∧ execAll cs ([], []) = .ok (env, h) ∧ specAll cs [] = .ok mats

theorem ReachTotal.reach {env : List Nat} {h : Heap K} {mats : List (Mat K)} (R : ReachTotal env h mats) :
    Reach env h mats := by
  obtain ⟨cs, h1, _, h2, h3⟩ := R
  exact ⟨cs, h1, h2, h3⟩

theorem Reach.inv {env : List Nat} {h : Heap K} {mats : List (Mat K)} (R : Reach env h mats) :
    ∃ D, HInv D h ∧ Link D env mats ∧ Ordered h ∧ RealTH h := by
  obtain ⟨cs, h1, h2, h3⟩ := R
  obtain ⟨mats', h4, D, I, L⟩ := execAll_pinv cs pinv_empty h1 h2
  rw [h3] at h4
  cases h4
  obtain ⟨D0, I0, L0⟩ := pinv_empty (K := K)
  have hO : Ordered ([] : Heap K) := by intro r o ho; simp at ho
  have hR : RealTH ([] : Heap K) := by intro r o ho; simp at ho
  exact ⟨D, I, L, execAll_ordered cs I0 L0 hO h1 h2, (execAll_grows cs h2).realTH hR⟩

theorem ReachTotal.inv {env : List Nat} {h : Heap K} {mats : List (Mat K)} (R : ReachTotal env h mats) :
    PTot env h mats := by
  obtain ⟨cs, h1, hc, h2, h3⟩ := R
  have := execAll_ptot cs ptot_empty h1 hc
  rw [h2] at this
  obtain ⟨m, h4, P⟩ := this
  rw [h3] at h4; cases h4; exact P

/-! ## C01 -/

/-- **C01.** Whatever a program builds, if the program runs then the corresponding matrix computation is defined and
every variable represents its matrix: a product that returns is the matrix-vector product. -/
theorem C01_operator_algebra (cs : List (Cmd K)) (hw : WFAll [] cs) (env : List Nat) (h : Heap K)
    (he : execAll cs ([], []) = .ok (env, h)) :
    ∃ mats, specAll cs [] = .ok mats ∧ env.length = mats.length ∧
      ∀ (i r : Nat) (A : Mat K), env[i]? = some r → mats[i]? = some A → Represents h r A := by
  obtain ⟨mats, hs, D, I, L⟩ := execAll_pinv cs pinv_empty hw he
  refine ⟨mats, hs, L.1, ?_⟩
  intro i r A hr hA
  obtain ⟨B, hB, hE⟩ := L.2 i r A hr hA
  exact I.represents hB hE

/-- **C01, total part.** For complete user operators the program runs iff the matrix computation is defined, fails with
the same exception otherwise, and every product with a vector of the right size returns the matrix-vector product. -/
theorem C01_operator_algebra_total (cs : List (Cmd K)) (hw : WFAll [] cs) (hc : ∀ c ∈ cs, c.Complete) :
    match execAll cs ([], []), specAll cs [] with
    | .ok (env, h), .ok mats => env.length = mats.length ∧
        ∀ (i r : Nat) (A : Mat K), env[i]? = some r → mats[i]? = some A → Represents h r A ∧ Total h r A
    | .error e, .error e' => e = e'
    | _, _ => False := by
  have := execAll_ptot cs ptot_empty hw hc
  cases he : execAll cs ([], []) with
  | error e => rw [he] at this; simp only at this; rw [this]
  | ok p =>
    obtain ⟨env, h⟩ := p
    rw [he] at this
    obtain ⟨mats, hs, D, S, I, L, hS, hE⟩ := this
    rw [hs]
    refine ⟨L.1, ?_⟩
    intro i r A hr hA
    obtain ⟨B, hB, hBE⟩ := L.2 i r A hr hA
    exact ⟨I.represents hB hBE, closed_total I hS (hE i r hr) hB hBE⟩

/-! ## C02 -/

/-- **C02.** `.T` / `.H` of any reachable operator, when present, represent the transpose / adjoint. -/
theorem C02_transpose_adjoint {env : List Nat} {h : Heap K} {mats : List (Mat K)} (R : Reach env h mats)
    {i r : Nat} {A : Mat K} (hr : env[i]? = some r) (hA : mats[i]? = some A) :
    (∀ t, getT h r = some t → Represents h t A.T) ∧ (∀ u, getH h r = some u → Represents h u A.H) := by
  obtain ⟨D, I, L, _, _⟩ := R.inv
  obtain ⟨B, hB, hE⟩ := L.2 i r A hr hA
  obtain ⟨o, ho, hok⟩ := I.get hB
  constructor
  · intro t ht
    simp only [getT, ho, Option.bind_some] at ht
    obtain ⟨C, hC, hCE⟩ := hok.T t ht
    exact I.represents hC (hCE.trans (Mat.T_eqv hE))
  · intro t ht
    simp only [getH, ho, Option.bind_some] at ht
    obtain ⟨C, hC, hCE⟩ := hok.H t ht
    exact I.represents hC (hCE.trans (Mat.H_eqv hE))

/-- **C02, total part.** For complete user operators both are present and their products return. -/
theorem C02_transpose_adjoint_total {env : List Nat} {h : Heap K} {mats : List (Mat K)} (R : ReachTotal env h mats)
    {i r : Nat} {A : Mat K} (hr : env[i]? = some r) (hA : mats[i]? = some A) :
    (∃ t, getT h r = some t ∧ Represents h t A.T ∧ Total h t A.T) ∧
    (∃ u, getH h r = some u ∧ Represents h u A.H ∧ Total h u A.H) := by
  obtain ⟨hT, hH⟩ := C02_transpose_adjoint R.reach hr hA
  obtain ⟨D, S, I, L, hS, hEnv⟩ := R.inv
  obtain ⟨B, hB, hE⟩ := L.2 i r A hr hA
  obtain ⟨o, ho, hok⟩ := I.get hB
  obtain ⟨o', ho', hc⟩ := hS r (hEnv i r hr)
  rw [ho] at ho'; cases ho'
  obtain ⟨t, ht, hts⟩ := hc.T
  obtain ⟨u, hu, hus⟩ := hc.H
  obtain ⟨C, hC, hCE⟩ := hok.T t ht
  obtain ⟨C', hC', hCE'⟩ := hok.H u hu
  have ht' : getT h r = some t := by simp [getT, ho, ht]
  have hu' : getH h r = some u := by simp [getH, ho, hu]
  exact ⟨⟨t, ht', hT t ht', closed_total I hS hts hC (hCE.trans (Mat.T_eqv hE))⟩,
    ⟨u, hu', hH u hu', closed_total I hS hus hC' (hCE'.trans (Mat.H_eqv hE))⟩⟩

/-! ## C04 -/

/-- **C04.** A non-complex operator has a transpose iff it has an adjoint, and the two give the same products. -/
theorem C04_real_transpose_adjoint {env : List Nat} {h : Heap K} {mats : List (Mat K)} (R : Reach env h mats)
    {i r : Nat} {o : Obj K} (hr : env[i]? = some r) (ho : h[r]? = some o) (hk : o.dtype ≠ .complex) :
    (getT h r = none ↔ getH h r = none) ∧
    ∀ t u, getT h r = some t → getH h r = some u → ∀ (f f' : Nat) (x : Arr K) (c c1 c' c1' : Cnt) (y z : Arr K), x.Typed →
      run h f t x c = (.ok y, c1) → run h f' u x c' = (.ok z, c1') → y = z := by
  obtain ⟨D, I, L, _, hR⟩ := R.inv
  refine ⟨by simpa [getT, getH, ho] using hR r o ho hk, ?_⟩
  intro t u ht hu f f' x c c1 c' c1' y z hx hy hz
  have hi : i < mats.length := by rw [← L.1]; exact (List.getElem?_eq_some_iff.1 hr).1
  have hA : mats[i]? = some mats[i] := List.getElem?_eq_getElem hi
  obtain ⟨hT, hH⟩ := C02_transpose_adjoint R hr hA
  obtain ⟨B, hB, hE⟩ := L.2 i r _ hr hA
  obtain ⟨o', ho', hok⟩ := I.get hB
  rw [ho] at ho'; cases ho'
  rw [((hT t ht).product f x c y c1 hx hy).2, ((hH u hu).product f' x c' z c1' hx hz).2]
  have hBB : mats[i].T.Eqv mats[i].H := by
    refine (Mat.T_eqv hE.symm).trans (Mat.Eqv.trans ?_ (Mat.H_eqv hE))
    refine ⟨rfl, rfl, rfl, ?_⟩
    intro a ha b hb
    have := hok.typed b hb a ha
    have hkind : B.kind = o.dtype := hok.dtype.symm
    have hmem : B.e b a ∈ (DTypes.sub .real : Subring K) := by
      rw [hkind] at this
      cases hd : o.dtype with
      | complex => exact absurd hd hk
      | real => rw [hd] at this; exact this
      | int => rw [hd] at this; exact DTypes.int_le_real this
    exact (DTypes.real_star hmem).symm
  rw [Mat.app_congr hBB]
  rfl

/-! ## C05 -/

/-- **C05.** An array with a wrong number of entries is rejected with `ValueError`, for every operator whatsoever. -/
theorem C05_wrong_size (h : Heap K) (r : Nat) (o : Obj K) (ho : h[r]? = some o) (x : Arr K)
    (hx : x.data.length ≠ o.nargin) (fuel : Nat) (c : Cnt) :
    (run h (fuel + 1) r x c).1 = .error .valueError := by
  simp only [run, ho]
  change (Act.bind (bump r) _ c).1 = _
  simp [Act.bind, bump, hx, Act.raise]

/-- **C05.** For every operator whatsoever, a product that returns has exactly `nargout` entries. -/
theorem C05_result_size (h : Heap K) (r : Nat) (o : Obj K) (ho : h[r]? = some o) (x y : Arr K) (fuel : Nat) (c c' : Cnt)
    (hr : run h fuel r x c = (.ok y, c')) : x.data.length = o.nargin ∧ y.data.length = o.nargout := by
  cases fuel with
  | zero => simp [run, Act.raise] at hr
  | succ f =>
    simp only [run, ho] at hr
    replace hr := act_bind_ok hr
    obtain ⟨_, c1, _, hr⟩ := hr
    split at hr
    · simp [Act.raise] at hr
    · next hx =>
      replace hr := act_bind_ok hr
      obtain ⟨z, c2, _, hr⟩ := hr
      split at hr
      · simp [Act.raise] at hr
      · next hz =>
        obtain ⟨rfl, _⟩ := pure_ok hr
        exact ⟨not_not.1 hx, by simpa [Arr.astype] using not_not.1 hz⟩

/-- **C05.** For complete programs the right size is accepted. -/
theorem C05_right_size {env : List Nat} {h : Heap K} {mats : List (Mat K)} (R : ReachTotal env h mats)
    {i r : Nat} {o : Obj K} (hr : env[i]? = some r) (ho : h[r]? = some o) (x : Arr K) (hx : x.Typed)
    (hl : x.data.length = o.nargin) (fuel : Nat) (hf : h.length ≤ fuel) (c : Cnt) :
    ∃ y c', run h fuel r x c = (.ok y, c') ∧ y.data.length = o.nargout := by
  obtain ⟨D, S, I, L, hS, hEnv⟩ := R.inv
  obtain ⟨A, hA, hok⟩ := I.get' ho
  obtain ⟨c', hc⟩ := closed_total I hS (hEnv i r hr) hA (Mat.Eqv.refl A) fuel x c hf hx (hl.trans hok.nargin)
  exact ⟨_, c', hc, by simp [Mat.app, hok.nargout]⟩

/-- **C05.** Sums, differences and products of operators raise `ShapeError` exactly when the shapes do not fit, and
powers raise for negative exponents and non-square operators; otherwise they succeed. -/
theorem C05_shape_errors (h : Heap K) (r s : Nat) (o p : Obj K) (ho : h[r]? = some o) (hp : h[s]? = some p) :
    (addOp r s h = .error .shapeError ↔ ¬(o.nargout = p.nargout ∧ o.nargin = p.nargin)) ∧
    (subOp r s h = .error .shapeError ↔ ¬(o.nargout = p.nargout ∧ o.nargin = p.nargin)) ∧
    (mulLinop r s h = .error .shapeError ↔ o.nargin ≠ p.nargout) ∧
    (∀ e, addOp r s h = .error e → e = .shapeError) ∧ (∀ e, subOp r s h = .error e → e = .shapeError) ∧
    (∀ e, mulLinop r s h = .error e → e = .shapeError) := by
  refine ⟨?_, ?_, ?_, ?_, ?_, ?_⟩
  · simp only [addOp, ho, hp]; split <;> simp_all
  · simp only [subOp, ho, hp]; split <;> simp_all
  · simp only [mulLinop, ho, hp]; split <;> simp_all
  · intro e; simp only [addOp, ho, hp]; split <;> simp_all
  · intro e; simp only [subOp, ho, hp]; split <;> simp_all
  · intro e; simp only [mulLinop, ho, hp]; split <;> simp_all

theorem C05_pow_errors {env : List Nat} {h : Heap K} {mats : List (Mat K)} (R : Reach env h mats)
    {i r : Nat} {o : Obj K} (_hr : env[i]? = some r) (ho : h[r]? = some o) (k : Int) :
    (k < 0 → powOp r k h = .error .valueError) ∧
    (0 ≤ k → o.nargin ≠ o.nargout → powOp r k h = .error .shapeError) ∧
    (0 ≤ k → o.nargin = o.nargout → ∃ p, powOp r k h = .ok p) := by
  obtain ⟨D, I, L, _, _⟩ := R.inv
  refine ⟨fun hk => by simp [powOp, ho, hk], fun hk hn => by simp [powOp, ho, hn, not_lt.2 hk], fun hk hn => ?_⟩
  obtain ⟨A, hA, hok⟩ := I.get' ho
  have hsq : A.cols = A.rows := by rw [← hok.nargin, ← hok.nargout]; exact hn
  obtain ⟨p, hp⟩ := powGo_exists hsq k.toNat D h I hA
  exact ⟨p, by simp [powOp, ho, hn, not_lt.2 hk, hp]⟩

end
end Verif.Linop
