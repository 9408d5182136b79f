import Verif.Linop.Spec

/-!
# Helper lemmas: every object on the heap denotes a matrix

`HInv D h` says that object `r` of heap `h` denotes the matrix `D[r]`: its closure computes products with it
(when it returns), its `.T` / `.H` pointers, when present, denote the transpose / adjoint, and its flags are true.
The constructor preserves it (`LinearOperator_inv`) and it makes products correct (`run_sound`).
-/

set_option linter.unusedSectionVars false

namespace Verif.Linop
open Finset

variable {K : Type} [CommRing K] [StarRing K] [DTypes K]

theorem getD_ge {x : List K} {j : Nat} (h : x.length ≤ j) : x.getD j 0 = 0 := by
  simp [List.getD_eq_getElem?_getD, List.getElem?_eq_none h]

/-! ## dtype facts -/

theorem DKind.join_comm (a b : DKind) : a.join b = b.join a := by cases a <;> cases b <;> rfl
theorem DKind.join_assoc (a b c : DKind) : (a.join b).join c = a.join (b.join c) := by
  cases a <;> cases b <;> cases c <;> rfl
theorem DKind.join_self (a : DKind) : a.join a = a := by cases a <;> rfl
theorem DKind.join_ne_complex {a b : DKind} : a.join b ≠ .complex ↔ a ≠ .complex ∧ b ≠ .complex := by
  cases a <;> cases b <;> decide

theorem sub_left (a b : DKind) : (DTypes.sub a : Subring K) ≤ DTypes.sub (a.join b) := by
  cases a <;> cases b <;> simp only [DKind.join] <;>
    first | exact le_rfl | exact DTypes.int_le_real | exact fun x _ => DTypes.complex_all x
theorem sub_right (a b : DKind) : (DTypes.sub b : Subring K) ≤ DTypes.sub (a.join b) := by
  rw [DKind.join_comm]; exact sub_left b a

theorem star_eq_of_mem {k : DKind} (hk : k ≠ .complex) {a : K} (h : a ∈ (DTypes.sub k : Subring K)) :
    star a = a := by
  cases k with
  | int => exact DTypes.real_star (DTypes.int_le_real h)
  | real => exact DTypes.real_star h
  | complex => exact absurd rfl hk

/-! ## matrix facts -/

namespace Mat
theorem T_T (A : Mat K) : A.T.T = A := rfl
theorem H_H (A : Mat K) : A.H.H = A := by simp [H]
theorem conj_T (A : Mat K) : A.conj.T = A.H := rfl
theorem conj_H (A : Mat K) : A.conj.H = A.T := by simp [H, conj, T]
theorem T_H (A : Mat K) : A.T.H = A.conj := rfl
theorem H_T (A : Mat K) : A.H.T = A.conj := rfl
theorem T_conj (A : Mat K) : A.T.conj = A.H := rfl
theorem H_conj (A : Mat K) : A.H.conj = A.T := by simp [H, conj, T]
theorem conj_conj (A : Mat K) : A.conj.conj = A := by simp [conj]

theorem Eqv.T {A B : Mat K} (h : A.Eqv B) : A.T.Eqv B.T :=
  ⟨h.cols, h.rows, h.kind, fun i hi j hj => h.entry j hj i hi⟩
theorem Eqv.H {A B : Mat K} (h : A.Eqv B) : A.H.Eqv B.H :=
  ⟨h.cols, h.rows, h.kind, fun i hi j hj => congrArg star (h.entry j hj i hi)⟩
theorem Eqv.conj {A B : Mat K} (h : A.Eqv B) : A.conj.Eqv B.conj :=
  ⟨h.rows, h.cols, h.kind, fun i hi j hj => congrArg star (h.entry i hi j hj)⟩

theorem Eqv.typed {A B : Mat K} (h : A.Eqv B) (hA : A.Typed) : B.Typed := by
  intro i hi j hj
  rw [← h.entry i (h.rows ▸ hi) j (h.cols ▸ hj), ← h.kind]
  exact hA i (h.rows ▸ hi) j (h.cols ▸ hj)

theorem Typed.T {A : Mat K} (h : A.Typed) : A.T.Typed := fun i hi j hj => h j hj i hi

theorem star_mem {k : DKind} {a : K} (h : a ∈ (DTypes.sub k : Subring K)) : star a ∈ (DTypes.sub k : Subring K) := by
  by_cases hk : k = .complex
  · subst hk; exact DTypes.complex_all _
  · rw [star_eq_of_mem hk h]; exact h

theorem Typed.H {A : Mat K} (h : A.Typed) : A.H.Typed := fun i hi j hj => star_mem (h j hj i hi)
theorem Typed.conj {A : Mat K} (h : A.Typed) : A.conj.Typed := fun i hi j hj => star_mem (h i hi j hj)

/-- For non-complex matrices transpose and adjoint coincide. -/
theorem T_eqv_H {A : Mat K} (h : A.Typed) (hk : A.kind ≠ .complex) : A.T.Eqv A.H :=
  ⟨rfl, rfl, rfl, fun i hi j hj => (star_eq_of_mem hk (h j hj i hi)).symm⟩
theorem eqv_conj {A : Mat K} (h : A.Typed) (hk : A.kind ≠ .complex) : A.Eqv A.conj :=
  ⟨rfl, rfl, rfl, fun i hi j hj => (star_eq_of_mem hk (h i hi j hj)).symm⟩

theorem app_length (A : Mat K) (x : List K) : (A.app x).length = A.rows := by simp [app]

theorem app_congr {A B : Mat K} (h : A.Eqv B) (x : List K) : A.app x = B.app x := by
  unfold app
  rw [← h.rows]
  apply List.map_congr_left
  intro i hi
  rw [← h.cols]
  refine Finset.sum_congr rfl fun j hj => ?_
  rw [h.entry i (by simpa using hi) j (by simpa using hj)]

theorem app_typed {A : Mat K} (hA : A.Typed) {x : Arr K} (hx : x.Typed) :
    ∀ a ∈ A.app x.data, a ∈ (DTypes.sub (A.kind.join x.kind) : Subring K) := by
  intro a ha
  simp only [app, List.mem_map, List.mem_range] at ha
  obtain ⟨i, hi, rfl⟩ := ha
  refine Subring.sum_mem _ fun j hj => Subring.mul_mem _ ?_ ?_
  · exact sub_left _ _ (hA i hi j (by simpa using hj))
  · refine sub_right A.kind x.kind ?_
    by_cases hjx : j < x.data.length
    · simp only [List.getD_eq_getElem?_getD, List.getElem?_eq_getElem hjx, Option.getD_some]
      exact hx _ (List.getElem_mem hjx)
    · rw [getD_ge (by omega)]
      exact Subring.zero_mem _

theorem app_conj (A : Mat K) (x : List K) : A.conj.app x = (A.app (x.map star)).map star := by
  simp only [app, conj, List.map_map]
  apply List.map_congr_left
  intro i _
  simp only [Function.comp, star_sum, star_mul']
  refine Finset.sum_congr rfl fun j _ => ?_
  congr 1
  by_cases hj : j < x.length
  · simp [List.getD_eq_getElem?_getD, hj]
  · rw [getD_ge (by omega), getD_ge (by simp; omega), star_zero]

theorem app_smul (a : K) (ka : DKind) (A : Mat K) (x : List K) :
    (A.smul a ka).app x = (A.app x).map (a * ·) := by
  simp only [app, smul, List.map_map]
  apply List.map_congr_left
  intro i _
  simp [Finset.mul_sum, mul_assoc]

theorem zipWith_map_range (f g : Nat → K) (op : K → K → K) (m : Nat) :
    List.zipWith op ((List.range m).map f) ((List.range m).map g) = (List.range m).map fun i => op (f i) (g i) := by
  rw [List.zipWith_map, List.zipWith_self]

theorem app_add (A B : Mat K) (hr : A.rows = B.rows) (hc : A.cols = B.cols) (x : List K) :
    (A.add B).app x = List.zipWith (· + ·) (A.app x) (B.app x) := by
  simp only [app, add, ← hr, ← hc]
  rw [zipWith_map_range]
  apply List.map_congr_left
  intro i _
  simp [add_mul, Finset.sum_add_distrib]

theorem app_sub (A B : Mat K) (hr : A.rows = B.rows) (hc : A.cols = B.cols) (x : List K) :
    (A.sub B).app x = List.zipWith (· - ·) (A.app x) (B.app x) := by
  simp only [app, sub, ← hr, ← hc]
  rw [zipWith_map_range]
  apply List.map_congr_left
  intro i _
  simp [sub_mul, Finset.sum_sub_distrib]

theorem app_getD (A : Mat K) (x : List K) {k : Nat} (hk : k < A.rows) :
    (A.app x).getD k 0 = ∑ j ∈ range A.cols, A.e k j * x.getD j 0 := by
  simp [app, List.getD_eq_getElem?_getD, hk]

theorem app_mul (A B : Mat K) (h : A.cols = B.rows) (x : List K) :
    (A.mul B).app x = A.app (B.app x) := by
  conv_rhs => rw [app]
  simp only [app, mul]
  apply List.map_congr_left
  intro i _
  have : ∀ k ∈ range A.cols, A.e i k * (((List.range B.rows).map fun i =>
      ∑ j ∈ range B.cols, B.e i j * x.getD j 0).getD k 0) =
      ∑ j ∈ range B.cols, A.e i k * B.e k j * x.getD j 0 := by
    intro k hk
    have := app_getD B x (k := k) (by rw [← h]; simpa using hk)
    rw [app] at this
    rw [this, Finset.mul_sum]
    simp [mul_assoc]
  rw [Finset.sum_congr rfl this, Finset.sum_comm]
  refine Finset.sum_congr rfl fun j _ => ?_
  rw [Finset.sum_mul]

end Mat

/-! ## arrays -/

theorem Arr.conj_typed {x : Arr K} (hx : x.Typed) : x.conj.Typed := by
  intro a ha
  simp only [Arr.conj, List.mem_map] at ha
  obtain ⟨b, hb, rfl⟩ := ha
  exact Mat.star_mem (hx b hb)

theorem astype_of_mem {k : DKind} {y : Arr K} (h : ∀ a ∈ y.data, a ∈ (DTypes.sub k : Subring K)) :
    y.astype k = ⟨k, y.data⟩ := by
  unfold Arr.astype
  congr 1
  conv_rhs => rw [← List.map_id y.data]
  exact List.map_congr_left fun a ha => DTypes.cast_of_mem (h a ha)

theorem map_star_of_real {x : Arr K} (hx : x.Typed) (hk : x.kind ≠ .complex) : x.data.map star = x.data := by
  conv_rhs => rw [← List.map_id x.data]
  exact List.map_congr_left fun a ha => star_eq_of_mem hk (hx a ha)

/-! ## monad bookkeeping -/

theorem act_bind_ok {α β} {x : Act α} {f : α → Act β} {c c' : Cnt} {b : β}
    (h : (x >>= f) c = (.ok b, c')) : ∃ a c1, x c = (.ok a, c1) ∧ f a c1 = (.ok b, c') := by
  change Act.bind x f c = _ at h
  unfold Act.bind at h
  split at h
  · next a c1 hx => exact ⟨a, c1, hx, h⟩
  · simp at h

theorem liftE_ok {α} {e : Except Err α} {c c' : Cnt} {a : α} (h : liftE e c = (.ok a, c')) :
    e = .ok a ∧ c' = c := by
  simp only [liftE, Prod.mk.injEq] at h; exact ⟨h.1, h.2.symm⟩

theorem pure_ok {α} {x a : α} {c c' : Cnt} (h : Act.pure x c = (.ok a, c')) : x = a ∧ c' = c := by
  simp only [Act.pure, Prod.mk.injEq, Except.ok.injEq] at h; exact ⟨h.1, h.2.symm⟩

/-! ## scatter / gather -/

/-- `z[put] = x` for a list of natural indices. -/
def scatterN (z : List K) : List (Nat × K) → List K
  | [] => z
  | p :: ps => scatterN (z.set p.1 p.2) ps

theorem scatter_ok {n : Nat} {put : List Int} {x z : List K} (h : scatter n put x = .ok z)
    (hl : x.length = put.length) :
    ∃ cs : List Nat, put.mapM (pyIndex n) = some cs ∧ z = scatterN (List.replicate n 0) (cs.zip x) := by
  have gen : ∀ (put : List Int) (x : List K) (z0 : List K), x.length = put.length →
      (put.zip x).foldlM (fun z p => match pyIndex n p.1 with
        | some i => Except.ok (z.set i p.2)
        | none => Except.error Err.indexError) z0 = .ok z →
      ∃ cs : List Nat, put.mapM (pyIndex n) = some cs ∧ z = scatterN z0 (cs.zip x) := by
    intro put
    induction put with
    | nil =>
      intro x z0 hl h
      simp only [List.zip_nil_left, List.foldlM_nil] at h
      cases h
      exact ⟨[], rfl, by simp [scatterN]⟩
    | cons p ps ih =>
      intro x z0 hl h
      cases x with
      | nil => simp at hl
      | cons a as =>
        rw [List.zip_cons_cons, List.foldlM_cons] at h
        cases hp : pyIndex n p with
        | none => simp only [hp] at h; cases h
        | some i =>
          simp only [hp] at h
          obtain ⟨cs, h1, h2⟩ := ih as (z0.set i a) (by simpa using hl) h
          exact ⟨i :: cs, by simp [List.mapM_cons, hp, h1], by simpa [scatterN] using h2⟩
  exact gen put x _ hl h

theorem scatterN_length (z : List K) (ps : List (Nat × K)) : (scatterN z ps).length = z.length := by
  induction ps generalizing z with
  | nil => rfl
  | cons p ps ih => simp [scatterN, ih]

theorem pyIndex_lt {n : Nat} {i : Int} {j : Nat} (h : pyIndex n i = some j) : j < n := by
  unfold pyIndex at h
  split at h
  · split at h <;> simp at h; omega
  · split at h <;> simp at h; omega

theorem mapM_pyIndex_lt {n : Nat} {l : List Int} {cs : List Nat} (h : l.mapM (pyIndex n) = some cs) :
    cs.length = l.length ∧ ∀ c ∈ cs, c < n := by
  induction l generalizing cs with
  | nil => simp at h; subst h; simp
  | cons i l ih =>
    rw [List.mapM_cons] at h
    cases hp : pyIndex n i with
    | none => simp [hp] at h
    | some j =>
      cases hm : l.mapM (pyIndex n) with
      | none => simp [hp, hm] at h
      | some cs' =>
        simp [hp, hm] at h
        subst h
        obtain ⟨h1, h2⟩ := ih hm
        refine ⟨by simp [h1], ?_⟩
        intro c hc
        rcases List.mem_cons.1 hc with rfl | hc
        · exact pyIndex_lt hp
        · exact h2 c hc

/-- The sum over the scattered vector picks the listed coordinates. -/
theorem sum_scatterN (n : Nat) (f : Nat → K) (cs : List Nat) (x : List K) (hl : x.length = cs.length)
    (hlt : ∀ c ∈ cs, c < n) (hnd : cs.Nodup) :
    ∀ z : List K, z.length = n → (∀ c ∈ cs, z.getD c 0 = 0) →
    ∑ j ∈ range n, f j * (scatterN z (cs.zip x)).getD j 0 =
      (∑ j ∈ range n, f j * z.getD j 0) + ∑ i ∈ range cs.length, f (cs.getD i 0) * x.getD i 0 := by
  induction cs generalizing x with
  | nil => intro z hz _; simp [scatterN]
  | cons c cs ih =>
    intro z hz h0
    cases x with
    | nil => simp at hl
    | cons a as =>
      have hc : c < n := hlt c (by simp)
      have hnc : c ∉ cs := (List.nodup_cons.1 hnd).1
      rw [List.zip_cons_cons, scatterN, ih as (by simpa using hl) (fun d hd => hlt d (by simp [hd]))
        (List.nodup_cons.1 hnd).2 (z.set c a) (by simp [hz])]
      · have e1 : ∑ j ∈ range n, f j * (z.set c a).getD j 0 = (∑ j ∈ range n, f j * z.getD j 0) + f c * a := by
          have : ∀ j ∈ range n, f j * (z.set c a).getD j 0 = f j * z.getD j 0 + (if j = c then f c * a else 0) := by
            intro j hj
            have hj' : j < n := by simpa using hj
            by_cases hjc : j = c
            · subst hjc
              have := h0 j (by simp)
              simp only [List.getD_eq_getElem?_getD] at this ⊢
              rw [List.getElem?_set_self (by omega), this]
              simp
            · simp only [List.getD_eq_getElem?_getD]
              rw [List.getElem?_set_ne (Ne.symm hjc)]
              simp [hjc]
          rw [Finset.sum_congr rfl this, Finset.sum_add_distrib]
          simp [hc]
        rw [e1, List.length_cons, Finset.sum_range_succ']
        simp only [List.getD_cons_zero, List.getD_cons_succ]
        ring
      · intro d hd
        have hdc : d ≠ c := fun e => hnc (e ▸ hd)
        have := h0 d (by simp [hd])
        simp only [List.getD_eq_getElem?_getD] at this ⊢
        rw [List.getElem?_set_ne (Ne.symm hdc)]
        exact this

theorem pick_ok {y w : List K} {take : List Int} (h : pick y take = .ok w) :
    ∃ rs : List Nat, take.mapM (pyIndex y.length) = some rs ∧ w = rs.map fun i => y.getD i 0 := by
  induction take generalizing w with
  | nil => unfold pick at h; cases h; exact ⟨[], rfl, rfl⟩
  | cons i l ih =>
    unfold pick at h
    rw [List.mapM_cons] at h
    cases hp : pyIndex y.length i with
    | none => simp only [hp] at h; cases h
    | some j =>
      have hj := pyIndex_lt hp
      simp only [hp, List.getElem?_eq_getElem hj] at h
      cases hm : pick y l with
      | error e => unfold pick at hm; rw [hm] at h; cases h
      | ok w' =>
        obtain ⟨rs, h1, h2⟩ := ih hm
        unfold pick at hm; rw [hm] at h; cases h
        refine ⟨j :: rs, by simp [List.mapM_cons, hp, h1], ?_⟩
        simp [h2, List.getD_eq_getElem?_getD, hj]

/-! ## The invariant -/

/-- The matrix a closure target should act as. -/
def tgtMat (D : List (Mat K)) (t : Tgt) : Option (Mat K) :=
  match t.sel with
  | .self => D[t.ref]?
  | .T => D[t.ref]?.map Mat.T
  | .H => D[t.ref]?.map Mat.H

/-- Entries equal on the common shape (kinds may differ). -/
structure Same (A B : Mat K) : Prop where
  rows : A.rows = B.rows
  cols : A.cols = B.cols
  entry : ∀ i < A.rows, ∀ j < A.cols, A.e i j = B.e i j

theorem Same.of_eqv {A B : Mat K} (h : A.Eqv B) : Same A B := ⟨h.rows, h.cols, h.entry⟩
theorem Same.trans {A B C : Mat K} (h : Same A B) (g : Same B C) : Same A C :=
  ⟨h.rows.trans g.rows, h.cols.trans g.cols, fun i hi j hj =>
    (h.entry i hi j hj).trans (g.entry i (h.rows ▸ hi) j (h.cols ▸ hj))⟩
theorem Same.app {A B : Mat K} (h : Same A B) (x : List K) : A.app x = B.app x := by
  have := Mat.app_congr (A := A) (B := { B with kind := A.kind }) ⟨h.rows, h.cols, rfl, h.entry⟩ x
  rw [this]; rfl

/-- A user function computes products with `A` on arrays of the right size, if it returns. -/
def Honest (A : Mat K) (f : Arr K → Except Err (Arr K)) : Prop :=
  ∀ x : Arr K, x.Typed → x.data.length = A.cols → ∀ y, f x = .ok y → y.data = A.app x.data

/-- The code of a closure computes products with `A`. -/
def CodeOK (D : List (Mat K)) (A : Mat K) : Code K → Prop
  | .prim f => Honest A f
  | .conj t => ∃ B, tgtMat D t = some B ∧ Same B.conj A
  | .scal a ka t => ∃ B, tgtMat D t = some B ∧ Same (B.smul a ka) A
  | .comp o i => ∃ B C, tgtMat D o = some B ∧ tgtMat D i = some C ∧ B.cols = C.rows ∧ Same (B.mul C) A
  | .add l r => ∃ B C, tgtMat D l = some B ∧ tgtMat D r = some C ∧ B.rows = C.rows ∧ B.cols = C.cols ∧
      Same (B.add C) A
  | .sub l r => ∃ B C, tgtMat D l = some B ∧ tgtMat D r = some C ∧ B.rows = C.rows ∧ B.cols = C.cols ∧
      Same (B.sub C) A
  | .gather n put take t => ∃ B, tgtMat D t = some B ∧ n = B.cols ∧
      put.length = A.cols ∧ take.length = A.rows ∧
      ∀ cs rs, put.mapM (pyIndex B.cols) = some cs → take.mapM (pyIndex B.rows) = some rs →
        cs.Nodup ∧ Same (B.submat rs cs) A

/-- One object denotes a matrix. -/
structure ObjOK (D : List (Mat K)) (o : Obj K) (A : Mat K) : Prop where
  nargin : o.nargin = A.cols
  nargout : o.nargout = A.rows
  dtype : o.dtype = A.kind
  typed : A.Typed
  symm : o.symmetric = true → A.Eqv A.T
  herm : o.hermitian = true → A.Eqv A.H
  code : CodeOK D A o.code
  T : ∀ t, o.T = some t → ∃ B, D[t]? = some B ∧ B.Eqv A.T
  H : ∀ t, o.H = some t → ∃ B, D[t]? = some B ∧ B.Eqv A.H

structure HInv (D : List (Mat K)) (h : Heap K) : Prop where
  len : h.length = D.length
  ok : ∀ (r : Nat) (o : Obj K) (A : Mat K), h[r]? = some o → D[r]? = some A → ObjOK D o A

theorem HInv.get {D : List (Mat K)} {h : Heap K} (I : HInv D h) {r : Nat} {A : Mat K} (hA : D[r]? = some A) :
    ∃ o, h[r]? = some o ∧ ObjOK D o A := by
  have hr : r < D.length := (List.getElem?_eq_some_iff.1 hA).1
  have : r < h.length := by rw [I.len]; exact hr
  exact ⟨h[r], List.getElem?_eq_getElem this, I.ok r _ A (List.getElem?_eq_getElem this) hA⟩

theorem HInv.get' {D : List (Mat K)} {h : Heap K} (I : HInv D h) {r : Nat} {o : Obj K} (ho : h[r]? = some o) :
    ∃ A, D[r]? = some A ∧ ObjOK D o A := by
  have hr : r < h.length := (List.getElem?_eq_some_iff.1 ho).1
  have : r < D.length := by rw [← I.len]; exact hr
  exact ⟨D[r], List.getElem?_eq_getElem this, I.ok r _ _ ho (List.getElem?_eq_getElem this)⟩

/-- One object denotes the entries of a matrix; its dtype, and those of its `.T` and `.H`, may be wider than needed. -/
structure VOK (D : List (Mat K)) (o : Obj K) (A : Mat K) : Prop where
  nargin : o.nargin = A.cols
  nargout : o.nargout = A.rows
  typed : Mat.Typed { A with kind := o.dtype }
  symm : o.symmetric = true → Same A A.T
  herm : o.hermitian = true → Same A A.H
  code : CodeOK D A o.code
  T : ∀ t, o.T = some t → ∃ B, D[t]? = some B ∧ Same B A.T
  H : ∀ t, o.H = some t → ∃ B, D[t]? = some B ∧ Same B A.H

structure VInv (D : List (Mat K)) (h : Heap K) : Prop where
  len : h.length = D.length
  ok : ∀ (r : Nat) (o : Obj K) (A : Mat K), h[r]? = some o → D[r]? = some A → VOK D o A

theorem HInv.toV {D : List (Mat K)} {h : Heap K} (I : HInv D h) : VInv D h := by
  refine ⟨I.len, fun r o A ho hA => ?_⟩
  have k := I.ok r o A ho hA
  refine ⟨k.nargin, k.nargout, ?_, fun e => .of_eqv (k.symm e), fun e => .of_eqv (k.herm e), k.code, ?_, ?_⟩
  · rw [k.dtype]; exact k.typed
  · intro t ht; obtain ⟨B, h1, h2⟩ := k.T t ht; exact ⟨B, h1, .of_eqv h2⟩
  · intro t ht; obtain ⟨B, h1, h2⟩ := k.H t ht; exact ⟨B, h1, .of_eqv h2⟩

theorem VInv.get {D : List (Mat K)} {h : Heap K} (I : VInv D h) {r : Nat} {A : Mat K} (hA : D[r]? = some A) :
    ∃ o, h[r]? = some o ∧ VOK D o A := by
  have hr : r < D.length := (List.getElem?_eq_some_iff.1 hA).1
  have : r < h.length := by rw [I.len]; exact hr
  exact ⟨h[r], List.getElem?_eq_getElem this, I.ok r _ A (List.getElem?_eq_getElem this) hA⟩

theorem VInv.get' {D : List (Mat K)} {h : Heap K} (I : VInv D h) {r : Nat} {o : Obj K} (ho : h[r]? = some o) :
    ∃ A, D[r]? = some A ∧ VOK D o A := by
  have hr : r < h.length := (List.getElem?_eq_some_iff.1 ho).1
  have : r < D.length := by rw [← I.len]; exact hr
  exact ⟨D[r], List.getElem?_eq_getElem this, I.ok r _ _ ho (List.getElem?_eq_getElem this)⟩

theorem resolve_ok {D : List (Mat K)} {h : Heap K} (I : VInv D h) {t : Tgt} {r : Nat} {B : Mat K}
    (hB : tgtMat D t = some B) (hr : resolve h t = .ok r) : ∃ C, D[r]? = some C ∧ Same C B := by
  unfold resolve at hr
  split at hr
  · simp at hr
  · next o ho =>
    obtain ⟨A, hA, hok⟩ := I.get' ho
    cases hs : t.sel with
    | self =>
      simp only [hs, Except.ok.injEq] at hr
      subst hr
      simp only [tgtMat, hs, hA, Option.some.injEq] at hB
      exact ⟨A, hA, hB ▸ .of_eqv (Mat.Eqv.refl A)⟩
    | T =>
      simp only [hs] at hr
      simp only [tgtMat, hs, hA, Option.map_some, Option.some.injEq] at hB
      split at hr
      · next t' ht =>
        simp only [Except.ok.injEq] at hr
        subst hr
        obtain ⟨C, hC, hE⟩ := hok.T _ ht
        exact ⟨C, hC, hB ▸ hE⟩
      · simp at hr
    | H =>
      simp only [hs] at hr
      simp only [tgtMat, hs, hA, Option.map_some, Option.some.injEq] at hB
      split at hr
      · next t' ht =>
        simp only [Except.ok.injEq] at hr
        subst hr
        obtain ⟨C, hC, hE⟩ := hok.H _ ht
        exact ⟨C, hC, hB ▸ hE⟩
      · simp at hr

theorem scatterN_typed (S : Subring K) : ∀ (ps : List (Nat × K)) (z : List K), (∀ a ∈ z, a ∈ S) →
    (∀ p ∈ ps, p.2 ∈ S) → ∀ a ∈ scatterN z ps, a ∈ S := by
  intro ps
  induction ps with
  | nil => intro z hz _ a ha; exact hz a ha
  | cons p ps ih =>
    intro z hz hp a ha
    refine ih (z.set p.1 p.2) ?_ (fun q hq => hp q (by simp [hq])) a ha
    intro b hb
    rcases List.mem_or_eq_of_mem_set hb with hb | rfl
    · exact hz b hb
    · exact hp p (by simp)

/-- Running the closure of an object that denotes `A`. -/
theorem evalCode_sound {D : List (Mat K)} {h : Heap K} (I : VInv D h) {A : Mat K}
    (app : Nat → Arr K → Act (Arr K))
    (happ : ∀ r B x c y c', D[r]? = some B → x.Typed → app r x c = (.ok y, c') →
      x.data.length = B.cols ∧ y.data = B.app x.data ∧ y.Typed)
    {code : Code K} (hc : CodeOK D A code) {x y : Arr K} {c c' : Cnt} (hx : x.Typed)
    (hl : x.data.length = A.cols) (hr : evalCode h app code x c = (.ok y, c')) : y.data = A.app x.data := by
  have happ' : ∀ t B x c y c' r, tgtMat D t = some B → resolve h t = .ok r → x.Typed →
      app r x c = (.ok y, c') → x.data.length = B.cols ∧ y.data = B.app x.data ∧ y.Typed := by
    intro t B x c y c' r hB hr hx hy
    obtain ⟨C, hC, hE⟩ := resolve_ok I hB hr
    have := happ r C x c y c' hC hx hy
    rw [← hE.cols, ← hE.app]
    exact this
  cases code with
  | prim f =>
    obtain ⟨h1, _⟩ := liftE_ok hr
    exact hc x hx hl y h1
  | conj t =>
    obtain ⟨B, hB, hE⟩ := hc
    obtain ⟨r, c1, h1, h2⟩ := act_bind_ok hr
    replace h1 := liftE_ok h1
    obtain ⟨h1, rfl⟩ := h1
    rw [← hE.app, Mat.app_conj]
    by_cases hk : x.kind = .complex
    · simp only [hk, if_true] at h2
      obtain ⟨z, c2, h3, h4⟩ := act_bind_ok h2
      obtain ⟨rfl, _⟩ := pure_ok h4
      obtain ⟨_, hd, _⟩ := happ' t B _ _ _ _ r hB h1 (Arr.conj_typed hx) h3
      simp only [Arr.conj] at hd ⊢
      rw [hd]
    · simp only [hk, if_false] at h2
      obtain ⟨z, c2, h3, h4⟩ := act_bind_ok h2
      obtain ⟨rfl, _⟩ := pure_ok h4
      obtain ⟨_, hd, _⟩ := happ' t B _ _ _ _ r hB h1 hx h3
      simp [Arr.conj, hd, map_star_of_real hx hk]
  | scal a ka t =>
    obtain ⟨B, hB, hE⟩ := hc
    obtain ⟨r, c1, h1, h2⟩ := act_bind_ok hr
    replace h1 := liftE_ok h1
    obtain ⟨h1, rfl⟩ := h1
    obtain ⟨z, c2, h3, h4⟩ := act_bind_ok h2
    obtain ⟨rfl, _⟩ := pure_ok h4
    obtain ⟨_, hd, _⟩ := happ' t B _ _ _ _ r hB h1 hx h3
    rw [← hE.app, Mat.app_smul]
    simp [Arr.smul, hd]
  | comp o i =>
    obtain ⟨B, C, hB, hC, hd, hE⟩ := hc
    obtain ⟨ri, c1, h1, h2⟩ := act_bind_ok hr
    replace h1 := liftE_ok h1
    obtain ⟨h1, rfl⟩ := h1
    obtain ⟨z, c2, h3, h4⟩ := act_bind_ok h2
    obtain ⟨ro, c3, h5, h6⟩ := act_bind_ok h4
    replace h5 := liftE_ok h5
    obtain ⟨h5, rfl⟩ := h5
    obtain ⟨_, hd1, hz⟩ := happ' i C _ _ _ _ ri hC h1 hx h3
    obtain ⟨_, hd2, _⟩ := happ' o B _ _ _ _ ro hB h5 hz h6
    rw [← hE.app, Mat.app_mul _ _ hd, hd2, hd1]
  | add l r =>
    obtain ⟨B, C, hB, hC, hd, hd', hE⟩ := hc
    obtain ⟨rl, c1, h1, h2⟩ := act_bind_ok hr
    replace h1 := liftE_ok h1
    obtain ⟨h1, rfl⟩ := h1
    obtain ⟨z, c2, h3, h4⟩ := act_bind_ok h2
    obtain ⟨rr, c3, h5, h6⟩ := act_bind_ok h4
    replace h5 := liftE_ok h5
    obtain ⟨h5, rfl⟩ := h5
    obtain ⟨w, c4, h7, h8⟩ := act_bind_ok h6
    obtain ⟨h8, _⟩ := liftE_ok h8
    obtain ⟨_, hd1, _⟩ := happ' l B _ _ _ _ rl hB h1 hx h3
    obtain ⟨_, hd2, _⟩ := happ' r C _ _ _ _ rr hC h5 hx h7
    unfold Arr.add at h8
    split at h8
    · simp only [Except.ok.injEq] at h8
      rw [← hE.app, Mat.app_add _ _ hd hd', ← h8, ← hd1, ← hd2]
    · simp at h8
  | sub l r =>
    obtain ⟨B, C, hB, hC, hd, hd', hE⟩ := hc
    obtain ⟨rl, c1, h1, h2⟩ := act_bind_ok hr
    replace h1 := liftE_ok h1
    obtain ⟨h1, rfl⟩ := h1
    obtain ⟨z, c2, h3, h4⟩ := act_bind_ok h2
    obtain ⟨rr, c3, h5, h6⟩ := act_bind_ok h4
    replace h5 := liftE_ok h5
    obtain ⟨h5, rfl⟩ := h5
    obtain ⟨w, c4, h7, h8⟩ := act_bind_ok h6
    obtain ⟨h8, _⟩ := liftE_ok h8
    obtain ⟨_, hd1, _⟩ := happ' l B _ _ _ _ rl hB h1 hx h3
    obtain ⟨_, hd2, _⟩ := happ' r C _ _ _ _ rr hC h5 hx h7
    unfold Arr.sub at h8
    split at h8
    · simp only [Except.ok.injEq] at h8
      rw [← hE.app, Mat.app_sub _ _ hd hd', ← h8, ← hd1, ← hd2]
    · simp at h8
  | gather n put take t =>
    obtain ⟨B, hB, rfl, hpl, htl, hE⟩ := hc
    obtain ⟨z, c1, h1, h2⟩ := act_bind_ok hr
    replace h1 := liftE_ok h1
    obtain ⟨h1, rfl⟩ := h1
    obtain ⟨r, c2, h3, h4⟩ := act_bind_ok h2
    replace h3 := liftE_ok h3
    obtain ⟨h3, rfl⟩ := h3
    obtain ⟨y1, c3, h5, h6⟩ := act_bind_ok h4
    obtain ⟨w, c4, h7, h8⟩ := act_bind_ok h6
    obtain ⟨h7, _⟩ := liftE_ok h7
    obtain ⟨rfl, _⟩ := pure_ok h8
    obtain ⟨cs, hcs, rfl⟩ := scatter_ok h1 (by rw [hl, hpl])
    obtain ⟨hcl, hclt⟩ := mapM_pyIndex_lt hcs
    have hz : Arr.Typed ⟨x.kind, scatterN (List.replicate B.cols 0) (cs.zip x.data)⟩ := by
      refine scatterN_typed _ _ _ ?_ ?_
      · intro a ha; rw [(List.mem_replicate.1 ha).2]; exact Subring.zero_mem _
      · intro p hp; exact hx _ (List.of_mem_zip hp).2
    obtain ⟨_, hd, _⟩ := happ' t B _ _ _ _ r hB h3 hz h5
    rw [hd] at h7
    obtain ⟨rs, hrs, rfl⟩ := pick_ok h7
    rw [Mat.app_length] at hrs
    obtain ⟨hrl, hrlt⟩ := mapM_pyIndex_lt hrs
    obtain ⟨hnd, hS⟩ := hE cs rs hcs hrs
    rw [← hS.app]
    apply List.ext_getElem
    · simp [Mat.app_length, Mat.submat]
    · intro i hi1 hi2
      simp only [List.length_map] at hi1
      have hri : rs[i] < B.rows := hrlt _ (List.getElem_mem hi1)
      have hsum := sum_scatterN B.cols (B.e rs[i]) cs x.data (by omega) hclt hnd (List.replicate B.cols 0)
        (by simp) (by intro c hc; simp [List.getD_eq_getElem?_getD, hclt c hc])
      have hz0 : ∑ j ∈ range B.cols, B.e rs[i] j * (List.replicate B.cols (0:K)).getD j 0 = 0 := by
        refine Finset.sum_eq_zero fun j hj => ?_
        have : j < B.cols := by simpa using hj
        simp [List.getD_eq_getElem?_getD, this]
      simp only [List.getElem_map]
      rw [Mat.app_getD B _ hri, hsum, hz0, zero_add]
      simp only [Mat.app, Mat.submat, List.getElem_map, List.getElem_range]
      have : rs.getD i 0 = rs[i] := by simp [List.getD_eq_getElem?_getD, hi1]
      rw [this]

/-- A product that returns is the matrix-vector product, in the result dtype of the object. -/
theorem VInv.run_sound {D : List (Mat K)} {h : Heap K} (I : VInv D h) :
    ∀ (fuel r : Nat) (o : Obj K) (A : Mat K) (x : Arr K) (c : Cnt) (y : Arr K) (c' : Cnt), h[r]? = some o →
      D[r]? = some A → x.Typed → run h fuel r x c = (.ok y, c') →
      x.data.length = A.cols ∧ y = ⟨o.dtype.join x.kind, A.app x.data⟩ := by
  intro fuel
  induction fuel with
  | zero => intro r o A x c y c' _ _ _ hr; simp [run, Act.raise] at hr
  | succ fuel ih =>
    intro r o A x c y c' ho hA hx hr
    have hok := I.ok r o A ho hA
    simp only [run, ho] at hr
    obtain ⟨_, c1, _, hr⟩ := act_bind_ok hr
    split at hr
    · simp [Act.raise] at hr
    · next hlen =>
      have hlen : x.data.length = A.cols := by rw [← hok.nargin]; exact not_not.1 hlen
      obtain ⟨z, c2, h1, hr⟩ := act_bind_ok hr
      split at hr
      · simp [Act.raise] at hr
      · obtain ⟨rfl, _⟩ := pure_ok hr
        have hz := evalCode_sound I (run h fuel) (fun r B x c y c' hB hx hy => by
            obtain ⟨o', ho', hok'⟩ := I.get hB
            obtain ⟨e1, e2⟩ := ih r o' B x c y c' ho' hB hx hy
            exact ⟨e1, by rw [e2], by rw [e2]; exact Mat.app_typed hok'.typed hx⟩)
          hok.code hx hlen h1
        refine ⟨hlen, ?_⟩
        rw [astype_of_mem, hz]
        rw [hz]
        exact Mat.app_typed hok.typed hx

/-- A product that returns is the matrix-vector product, in the result dtype. -/
theorem run_sound {D : List (Mat K)} {h : Heap K} (I : HInv D h)
    (fuel r : Nat) (A : Mat K) (x : Arr K) (c : Cnt) (y : Arr K) (c' : Cnt) (hA : D[r]? = some A) (hx : x.Typed)
    (hr : run h fuel r x c = (.ok y, c')) : x.data.length = A.cols ∧ y = ⟨A.kind.join x.kind, A.app x.data⟩ := by
  obtain ⟨o, ho, hok⟩ := I.get hA
  rw [← hok.dtype]
  exact I.toV.run_sound fuel r o A x c y c' ho hA hx hr

end Verif.Linop
