import Verif.Linop.Program
import Verif.Linop.Table

/-!
# Helper lemmas: programs preserve the representation invariant
-/

set_option linter.unusedSectionVars false

namespace Verif.Linop

variable {K : Type} [CommRing K] [StarRing K] [DTypes K]

/-- A command returned an object that denotes `A`; existing objects are untouched. -/
def Made (D : List (Mat K)) (h : Heap K) (p : Nat × Heap K) (A : Mat K) : Prop :=
  Frame h.length h p.2 ∧ ∃ E, HInv (D ++ E) p.2 ∧ ∃ B, (D ++ E)[p.1]? = some B ∧ B.Eqv A

theorem Makes.made {D : List (Mat K)} {h : Heap K} (I : HInv D h) {p : Nat × Heap K} {A B : Mat K}
    (m : Makes D h p A) (hE : A.Eqv B) : Made D h p B := by
  obtain ⟨h1, h2, E, h3⟩ := m
  refine ⟨h2, A :: E, h3, A, ?_, hE⟩
  rw [h1, I.len, List.getElem?_append_right le_rfl]; simp

/-- variables denote matrices -/
def Link (D : List (Mat K)) (env : List Nat) (mats : List (Mat K)) : Prop :=
  env.length = mats.length ∧
    ∀ (i r : Nat) (A : Mat K), env[i]? = some r → mats[i]? = some A → ∃ B, D[r]? = some B ∧ B.Eqv A

theorem Link.look {D : List (Mat K)} {env : List Nat} {mats : List (Mat K)} (L : Link D env mats) {i r : Nat}
    (h : look env i = .ok r) : ∃ A B, mlook mats i = .ok A ∧ mats[i]? = some A ∧ D[r]? = some B ∧ B.Eqv A := by
  unfold Linop.look at h
  cases he : env[i]? with
  | none => simp [he] at h
  | some r' =>
    simp only [he, Except.ok.injEq] at h
    subst h
    have hi : i < mats.length := by rw [← L.1]; exact (List.getElem?_eq_some_iff.1 he).1
    obtain ⟨B, h1, h2⟩ := L.2 i r' _ he (List.getElem?_eq_getElem hi)
    exact ⟨mats[i], B, by simp [mlook, List.getElem?_eq_getElem hi], List.getElem?_eq_getElem hi, h1, h2⟩

theorem Link.look_err {D : List (Mat K)} {env : List Nat} {mats : List (Mat K)} (L : Link D env mats) {i : Nat}
    {e : Err} (h : Linop.look env i = .error e) : (mlook mats i : Except Err (Mat K)) = .error e := by
  unfold Linop.look at h
  cases he : env[i]? with
  | some r => simp [he] at h
  | none =>
    simp only [he, Except.error.injEq] at h
    have : mats[i]? = none := by
      rw [List.getElem?_eq_none_iff] at he ⊢; rw [← L.1]; exact he
    simp [mlook, this, h]

theorem ebind_ok {α β : Type} {e : Except Err α} {f : α → Except Err β} {b : β} (h : (e >>= f) = .ok b) :
    ∃ a, e = .ok a ∧ f a = .ok b := by
  cases e with
  | error x => cases h
  | ok a => exact ⟨a, rfl, h⟩

theorem Mat.T_eqv {A B : Mat K} (h : A.Eqv B) : A.T.Eqv B.T :=
  ⟨h.cols, h.rows, h.kind, fun i hi j hj => h.entry j hj i hi⟩
theorem Mat.H_eqv {A B : Mat K} (h : A.Eqv B) : A.H.Eqv B.H :=
  ⟨h.cols, h.rows, h.kind, fun i hi j hj => by
    change star (A.e j i) = star (B.e j i); rw [h.entry j hj i hi]⟩
theorem Mat.conj_eqv {A B : Mat K} (h : A.Eqv B) : A.conj.Eqv B.conj :=
  ⟨h.rows, h.cols, h.kind, fun i hi j hj => by
    change star (A.e i j) = star (B.e i j); rw [h.entry i hi j hj]⟩

theorem Mat.pow_rows {A : Mat K} (hA : A.cols = A.rows) : ∀ k, (A.pow k).rows = A.rows
  | 0 => hA
  | 1 => rfl
  | _ + 2 => rfl
theorem Mat.pow_eqv {A B : Mat K} (h : A.Eqv B) (hA : A.cols = A.rows) : ∀ k, (A.pow k).Eqv (B.pow k)
  | 0 => by rw [Mat.pow, Mat.pow, h.cols]; exact Mat.Eqv.refl _
  | 1 => h
  | k + 2 => Mat.mul_eqv h (Mat.pow_eqv h hA (k + 1)) (by rw [Mat.pow_rows hA]; exact hA)

theorem new_argsOK {D : List (Mat K)} {A : Mat K} {sy he : Bool} {f : Fn K} {ft fa : Option (Fn K)}
    {mats : List (Mat K)} (w : (Cmd.new A sy he f ft fa).WF mats) :
    ArgsOK D ⟨A.cols, A.rows, .prim f, ft.map .prim, fa.map .prim, sy, he, A.kind, none, none, none⟩ A where
  nargin := rfl
  nargout := rfl
  dtype := rfl
  typed := w.1
  symm := w.2.1
  herm := w.2.2.1
  matvec := w.2.2.2.1
  matvecTransp := by
    intro c hc
    cases ft with
    | none => cases hc
    | some g => cases hc; exact w.2.2.2.2.1 g rfl
  matvecAdj := by
    intro c hc
    cases fa with
    | none => cases hc
    | some g => cases hc; exact w.2.2.2.2.2 g rfl
  transposeOf := by intro t ht; cases ht
  adjointOf := by intro t ht; cases ht

theorem exec_sound [DecidableEq K] {D : List (Mat K)} {h : Heap K} (I : HInv D h) {env : List Nat}
    {mats : List (Mat K)} (L : Link D env mats) {c : Cmd K} (w : c.WF mats) {p : Nat × Heap K}
    (hp : c.exec env h = .ok p) : ∃ A, c.spec mats = .ok A ∧ Made D h p A := by
  cases c with
  | new A sy he f ft fa =>
    simp only [Cmd.exec, Except.ok.injEq] at hp
    subst hp
    exact ⟨A, rfl, (makes_of_args I (new_argsOK w)).made I (Mat.Eqv.refl _)⟩
  | ident n k =>
    simp only [Cmd.exec, Except.ok.injEq] at hp
    subst hp
    exact ⟨_, rfl, (IdentityOperator_makes I n k).made I (Mat.Eqv.refl _)⟩
  | zero nin nout k =>
    simp only [Cmd.exec, Except.ok.injEq] at hp
    subst hp
    exact ⟨_, rfl, (ZeroOperator_makes I nin nout k).made I (Mat.Eqv.refl _)⟩
  | diag d =>
    simp only [Cmd.exec, Except.ok.injEq] at hp
    subst hp
    exact ⟨_, rfl, (DiagonalOperator_makes I w).made I (Mat.Eqv.refl _)⟩
  | nd A sy he =>
    simp only [Cmd.exec] at hp
    refine ⟨Mat.ofNd A, ?_, (linopFromNdarray_makes I w.1 ⟨w.2.1, w.2.2⟩ hp).made I (Mat.Eqv.refl _)⟩
    simp only [linopFromNdarray] at hp
    simp only [Cmd.spec]
    split at hp
    · next hk => simp [hk]
    · split at hp
      · cases hp
      · next hx =>
        have : ¬ (sy ≠ he.getD sy) := by
          revert hx; cases sy <;> cases he.getD _ <;> simp
        simp only [this, and_false, if_false]
  | mul i j =>
    simp only [Cmd.exec] at hp
    obtain ⟨r, hr, hp⟩ := ebind_ok hp
    obtain ⟨s, hs, hp⟩ := ebind_ok hp
    obtain ⟨A, A', hA, _, hA', hAE⟩ := L.look hr
    obtain ⟨B, B', hB, _, hB', hBE⟩ := L.look hs
    obtain ⟨hd, m⟩ := mulLinop_makes I hA' hB' hp
    refine ⟨A.mul B, ?_, m.made I (Mat.mul_eqv hAE hBE hd)⟩
    have : A.cols = B.rows := by rw [← hAE.cols, ← hBE.rows]; exact hd
    simp [Cmd.spec, hA, hB, Bind.bind, Except.bind, this]
  | smul i a ka =>
    simp only [Cmd.exec] at hp
    obtain ⟨r, hr, hp⟩ := ebind_ok hp
    obtain ⟨A, A', hA, _, hA', hAE⟩ := L.look hr
    refine ⟨A.smul a ka, ?_, (mulScalar_makes I hA' w hp).made I (Mat.smul_eqv hAE a ka)⟩
    simp [Cmd.spec, hA, Bind.bind, Except.bind]
  | add i j =>
    simp only [Cmd.exec] at hp
    obtain ⟨r, hr, hp⟩ := ebind_ok hp
    obtain ⟨s, hs, hp⟩ := ebind_ok hp
    obtain ⟨A, A', hA, _, hA', hAE⟩ := L.look hr
    obtain ⟨B, B', hB, _, hB', hBE⟩ := L.look hs
    obtain ⟨hd, hd2, m⟩ := addOp_makes I hA' hB' hp
    refine ⟨A.add B, ?_, m.made I (Mat.add_eqv hAE hBE hd hd2)⟩
    have h1 : A.rows = B.rows := by rw [← hAE.rows, ← hBE.rows]; exact hd
    have h2 : A.cols = B.cols := by rw [← hAE.cols, ← hBE.cols]; exact hd2
    simp [Cmd.spec, hA, hB, Bind.bind, Except.bind, h1, h2]
  | sub i j =>
    simp only [Cmd.exec] at hp
    obtain ⟨r, hr, hp⟩ := ebind_ok hp
    obtain ⟨s, hs, hp⟩ := ebind_ok hp
    obtain ⟨A, A', hA, _, hA', hAE⟩ := L.look hr
    obtain ⟨B, B', hB, _, hB', hBE⟩ := L.look hs
    obtain ⟨hd, hd2, m⟩ := subOp_makes I hA' hB' hp
    refine ⟨A.sub B, ?_, m.made I (Mat.sub_eqv hAE hBE hd hd2)⟩
    have h1 : A.rows = B.rows := by rw [← hAE.rows, ← hBE.rows]; exact hd
    have h2 : A.cols = B.cols := by rw [← hAE.cols, ← hBE.cols]; exact hd2
    simp [Cmd.spec, hA, hB, Bind.bind, Except.bind, h1, h2]
  | neg i =>
    simp only [Cmd.exec] at hp
    obtain ⟨r, hr, hp⟩ := ebind_ok hp
    obtain ⟨A, A', hA, _, hA', hAE⟩ := L.look hr
    refine ⟨A.smul (-1) .int, ?_, (mulScalar_makes I hA' (Subring.neg_mem _ (Subring.one_mem _)) hp).made I
      (Mat.smul_eqv hAE _ _)⟩
    simp [Cmd.spec, hA, Bind.bind, Except.bind]
  | pow i k =>
    simp only [Cmd.exec] at hp
    obtain ⟨r, hr, hp⟩ := ebind_ok hp
    obtain ⟨A, A', hA, _, hA', hAE⟩ := L.look hr
    obtain ⟨o, ho, hoA⟩ := I.get hA'
    simp only [powOp, ho] at hp
    split at hp
    · cases hp
    · next hk =>
      split at hp
      · cases hp
      · next hsq =>
        have hsq : A'.cols = A'.rows := by rw [← hoA.nargin, ← hoA.nargout]; exact not_not.1 hsq
        obtain ⟨F, E, I', B, hB, hBE⟩ := powGo_makes hsq k.toNat D h I hA' p hp
        refine ⟨A.pow k.toNat, ?_, F, E, I', B, hB, hBE.trans (Mat.pow_eqv hAE hsq _)⟩
        have : A.cols = A.rows := by rw [← hAE.cols, ← hAE.rows]; exact hsq
        simp [Cmd.spec, hA, Bind.bind, Except.bind, this, hk]
  | T i =>
    simp only [Cmd.exec] at hp
    obtain ⟨r, hr, hp⟩ := ebind_ok hp
    obtain ⟨A, A', hA, _, hA', hAE⟩ := L.look hr
    obtain ⟨o, ho, hoA⟩ := I.get hA'
    split at hp
    · next t ht =>
      simp only [Except.ok.injEq] at hp
      subst hp
      simp only [getT, ho, Option.bind_some] at ht
      obtain ⟨B, hB, hBE⟩ := hoA.T t ht
      refine ⟨A.T, by simp [Cmd.spec, hA, Bind.bind, Except.bind], Frame.refl _ _, [], ?_, B, ?_, hBE.trans (Mat.T_eqv hAE)⟩
      · rw [List.append_nil]; exact I
      · rw [List.append_nil]; exact hB
    · cases hp
  | H i =>
    simp only [Cmd.exec] at hp
    obtain ⟨r, hr, hp⟩ := ebind_ok hp
    obtain ⟨A, A', hA, _, hA', hAE⟩ := L.look hr
    obtain ⟨o, ho, hoA⟩ := I.get hA'
    split at hp
    · next t ht =>
      simp only [Except.ok.injEq] at hp
      subst hp
      simp only [getH, ho, Option.bind_some] at ht
      obtain ⟨B, hB, hBE⟩ := hoA.H t ht
      refine ⟨A.H, by simp [Cmd.spec, hA, Bind.bind, Except.bind], Frame.refl _ _, [], ?_, B, ?_, hBE.trans (Mat.H_eqv hAE)⟩
      · rw [List.append_nil]; exact I
      · rw [List.append_nil]; exact hB
    · cases hp
  | conj i =>
    simp only [Cmd.exec] at hp
    obtain ⟨r, hr, hp⟩ := ebind_ok hp
    obtain ⟨A, A', hA, _, hA', hAE⟩ := L.look hr
    simp only [Except.ok.injEq] at hp
    subst hp
    obtain ⟨F, E, I', B, hB, hBE⟩ := conjugate_makes I hA'
    exact ⟨A.conj, by simp [Cmd.spec, hA, Bind.bind, Except.bind], F, E, I', B, hB,
      hBE.trans (Mat.conj_eqv hAE)⟩
  | reduce i rows cols =>
    simp only [Cmd.exec] at hp
    obtain ⟨r, hr, hp⟩ := ebind_ok hp
    obtain ⟨A, A', hA, hAm, hA', hAE⟩ := L.look hr
    obtain ⟨rs, cs, h1, h2, h3, h4⟩ := w A hAm
    refine ⟨A.submat rs cs, by simp [Cmd.spec, hA, Bind.bind, Except.bind, h1, h2], ?_⟩
    rw [← hAE.rows] at h1
    rw [← hAE.cols] at h2
    obtain ⟨_, hlt1⟩ := mapM_pyIndex_lt h1
    obtain ⟨_, hlt2⟩ := mapM_pyIndex_lt h2
    exact (Reduced_makes I hA' h1 h2 h3 h4 hp).made I (Mat.submat_eqv hAE hlt1 hlt2)
  | symreduce i idx =>
    simp only [Cmd.exec] at hp
    obtain ⟨r, hr, hp⟩ := ebind_ok hp
    obtain ⟨A, A', hA, hAm, hA', hAE⟩ := L.look hr
    obtain ⟨rs, cs, h1, h2, h3, h4⟩ := w A hAm
    refine ⟨A.submat rs cs, by simp [Cmd.spec, hA, Bind.bind, Except.bind, h1, h2], ?_⟩
    rw [← hAE.rows] at h1
    rw [← hAE.cols] at h2
    obtain ⟨_, hlt1⟩ := mapM_pyIndex_lt h1
    obtain ⟨_, hlt2⟩ := mapM_pyIndex_lt h2
    exact (SymReduced_makes I hA' h1 h2 h3 h4 hp).made I (Mat.submat_eqv hAE hlt1 hlt2)

/-- state invariant of a running program -/
def PInv (env : List Nat) (h : Heap K) (mats : List (Mat K)) : Prop := ∃ D, HInv D h ∧ Link D env mats

theorem exec_pinv [DecidableEq K] {env : List Nat} {h : Heap K} {mats : List (Mat K)} (P : PInv env h mats)
    {c : Cmd K} (w : c.WF mats) {p : Nat × Heap K} (hp : c.exec env h = .ok p) :
    ∃ A, c.spec mats = .ok A ∧ PInv (env ++ [p.1]) p.2 (mats ++ [A]) := by
  obtain ⟨D, I, L⟩ := P
  obtain ⟨A, hA, F, E, I', B, hB, hBE⟩ := exec_sound I L w hp
  refine ⟨A, hA, D ++ E, I', by simp [L.1], ?_⟩
  intro i r C hr hC
  rcases Nat.lt_trichotomy i env.length with hi | hi | hi
  · rw [List.getElem?_append_left hi] at hr
    rw [List.getElem?_append_left (L.1 ▸ hi)] at hC
    obtain ⟨B', h1, h2⟩ := L.2 i r C hr hC
    exact ⟨B', getElem?_append_some h1, h2⟩
  · subst hi
    rw [List.getElem?_append_right le_rfl] at hr
    rw [List.getElem?_append_right (L.1 ▸ le_rfl), L.1] at hC
    simp only [Nat.sub_self, List.getElem?_cons_zero, Option.some.injEq] at hr hC
    subst hr hC
    exact ⟨B, hB, hBE⟩
  · rw [List.getElem?_eq_none (by simp; omega)] at hr
    cases hr

theorem execAll_pinv [DecidableEq K] : ∀ (cs : List (Cmd K)) {env : List Nat} {h : Heap K} {mats : List (Mat K)},
    PInv env h mats → WFAll mats cs → ∀ {env' : List Nat} {h' : Heap K}, execAll cs (env, h) = .ok (env', h') →
    ∃ mats', specAll cs mats = .ok mats' ∧ PInv env' h' mats'
  | [], env, h, mats, P, _, env', h', he => by
    simp only [execAll, Except.ok.injEq, Prod.mk.injEq] at he
    obtain ⟨rfl, rfl⟩ := he
    exact ⟨mats, rfl, P⟩
  | c :: cs, env, h, mats, P, w, env', h', he => by
    simp only [execAll] at he
    split at he
    · cases he
    · next r h1 hc =>
      obtain ⟨A, hA, P'⟩ := exec_pinv P w.1 hc
      obtain ⟨mats', h2, h3⟩ := execAll_pinv cs P' (w.2 A hA) he
      exact ⟨mats', by simp only [specAll, hA]; exact h2, h3⟩

theorem pinv_empty : PInv [] ([] : Heap K) [] :=
  ⟨[], ⟨rfl, by intro r o A h; simp at h⟩, rfl, by intro i r A h; simp at h⟩

theorem HInv.represents {D : List (Mat K)} {h : Heap K} (I : HInv D h) {r : Nat} {A B : Mat K}
    (hB : D[r]? = some B) (hE : B.Eqv A) : Represents h r A := by
  obtain ⟨o, ho, hok⟩ := I.get hB
  refine ⟨⟨o, ho, hok.nargin.trans hE.cols, hok.nargout.trans hE.rows, hok.dtype.trans hE.kind,
    fun hs => (hE.symm.trans (hok.symm hs)).trans (Mat.T_eqv hE),
    fun hs => (hE.symm.trans (hok.herm hs)).trans (Mat.H_eqv hE)⟩, ?_⟩
  intro fuel x c y c' hx hr
  obtain ⟨h1, h2⟩ := run_sound I fuel r B x c y c' hB hx hr
  exact ⟨h1.trans hE.cols, by rw [h2, hE.kind, Mat.app_congr hE]⟩

end Verif.Linop
