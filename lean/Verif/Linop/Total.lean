import Verif.Linop.Algebra

/-!
# Helper lemmas: products never raise on a closed set of operators

`Closed h S`: every operator in `S` has a transpose and an adjoint in `S`, and its closure only uses
operators in `S` that were created before it.
-/

set_option linter.unusedSectionVars false

namespace Verif.Linop
open Finset

variable {K : Type} [CommRing K] [StarRing K] [DTypes K]

/-- A target resolves to an earlier operator of `S`. -/
def TgtTot (h : Heap K) (S : Nat → Prop) (r : Nat) (t : Tgt) : Prop :=
  ∃ r', resolve h t = .ok r' ∧ r' < r ∧ S r'

/-- The user function returns on every array of the right size. -/
def Returns (n : Nat) (f : Arr K → Except Err (Arr K)) : Prop :=
  ∀ x : Arr K, x.Typed → x.data.length = n → ∃ y, f x = .ok y

def CodeTot (h : Heap K) (S : Nat → Prop) (r nin : Nat) : Code K → Prop
  | .prim f => Returns nin f
  | .conj t => TgtTot h S r t
  | .scal _ _ t => TgtTot h S r t
  | .comp o i => TgtTot h S r o ∧ TgtTot h S r i
  | .add a b => TgtTot h S r a ∧ TgtTot h S r b
  | .sub a b => TgtTot h S r a ∧ TgtTot h S r b
  | .gather n put take t => TgtTot h S r t ∧ (put.mapM (pyIndex n)).isSome ∧
      ∃ r' o', resolve h t = .ok r' ∧ h[r']? = some o' ∧ (take.mapM (pyIndex o'.nargout)).isSome

structure ObjClosed (h : Heap K) (S : Nat → Prop) (r : Nat) (o : Obj K) : Prop where
  T : ∃ t, o.T = some t ∧ S t
  H : ∃ t, o.H = some t ∧ S t
  code : CodeTot h S r o.nargin o.code

def Closed (h : Heap K) (S : Nat → Prop) : Prop := ∀ r, S r → ∃ o, h[r]? = some o ∧ ObjClosed h S r o

theorem bind_ok {α β} {x : Act α} {f : α → Act β} {c c1 : Cnt} {a : α} (h : x c = (.ok a, c1)) :
    (x >>= f) c = f a c1 := by
  change Act.bind x f c = _
  simp [Act.bind, h]

theorem scatter_returns {n : Nat} {put : List Int} {x : List K} (hp : (put.mapM (pyIndex n)).isSome) :
    ∃ z, scatter n put x = .ok z := by
  unfold scatter
  generalize List.replicate n (0 : K) = z0
  induction put generalizing x z0 with
  | nil => exact ⟨z0, rfl⟩
  | cons p ps ih =>
    cases x with
    | nil => exact ⟨z0, rfl⟩
    | cons a as =>
      rw [List.mapM_cons] at hp
      cases hpi : pyIndex n p with
      | none => simp [hpi] at hp
      | some i =>
        have hps : (ps.mapM (pyIndex n)).isSome := by
          cases hm : ps.mapM (pyIndex n) with
          | none => simp [hpi, hm] at hp
          | some _ => rfl
        obtain ⟨z, hz⟩ := ih hps (x := as) (z0.set i a)
        refine ⟨z, ?_⟩
        rw [List.zip_cons_cons, List.foldlM_cons]
        simp only [hpi]
        exact hz

theorem pick_returns {y : List K} {take : List Int} (hp : (take.mapM (pyIndex y.length)).isSome) :
    ∃ w, pick y take = .ok w := by
  induction take with
  | nil => exact ⟨[], rfl⟩
  | cons i l ih =>
    rw [List.mapM_cons] at hp
    cases hpi : pyIndex y.length i with
    | none => simp [hpi] at hp
    | some j =>
      have hj := pyIndex_lt hpi
      have hl : (l.mapM (pyIndex y.length)).isSome := by
        cases hm : l.mapM (pyIndex y.length) with
        | none => simp [hpi, hm] at hp
        | some _ => rfl
      obtain ⟨w, hw⟩ := ih hl
      refine ⟨y[j] :: w, ?_⟩
      unfold pick at hw ⊢
      rw [List.mapM_cons]
      simp only [hpi, List.getElem?_eq_getElem hj]
      rw [hw]; rfl

/-- On a closed set, a product with an array of the right size returns. -/
theorem VInv.run_total {D : List (Mat K)} {h : Heap K} (I : VInv D h) {S : Nat → Prop} (hS : Closed h S) :
    ∀ (fuel r : Nat) (o : Obj K) (A : Mat K) (x : Arr K) (c : Cnt), S r → r < fuel → h[r]? = some o → D[r]? = some A →
      x.Typed → x.data.length = A.cols → ∃ c', run h fuel r x c = (.ok ⟨o.dtype.join x.kind, A.app x.data⟩, c') := by
  intro fuel
  induction fuel with
  | zero => intro r o A x c _ h; omega
  | succ fuel ih =>
    intro r o A x c hr hlt ho hA hx hl
    obtain ⟨o', ho', hcl⟩ := hS r hr
    rw [ho] at ho'; cases ho'
    have hok := I.ok r o A ho hA
    -- products with the targets
    have app : ∀ t B (x : Arr K) (c : Cnt), TgtTot h S r t → tgtMat D t = some B → x.Typed →
        x.data.length = B.cols → ∃ r', resolve h t = .ok r' ∧
          ∃ y c', run h fuel r' x c = (.ok y, c') ∧ y.data = B.app x.data ∧ y.Typed := by
      intro t B x c ⟨r', h1, h2, h3⟩ hB hx hl
      obtain ⟨C, hC, hE⟩ := resolve_ok I hB h1
      obtain ⟨o', ho', hok'⟩ := I.get hC
      obtain ⟨c', hc'⟩ := ih r' o' C x c h3 (by omega) ho' hC hx (by rw [hl, hE.cols])
      exact ⟨r', h1, _, c', hc', hE.app _, Mat.app_typed hok'.typed hx⟩
    have hcode : ∀ c, ∃ y c', evalCode h (run h fuel) o.code x c = (.ok y, c') := by
      intro c
      have hc := hok.code
      have ht := hcl.code
      cases hcd : o.code with
      | prim f =>
        rw [hcd] at hc ht
        obtain ⟨y, hy⟩ := ht x hx (by rw [hl, hok.nargin])
        exact ⟨y, c, by simp [evalCode, liftE, hy]⟩
      | conj t =>
        rw [hcd] at hc ht
        obtain ⟨B, hB, hE⟩ := hc
        have hcols : x.data.length = B.cols := by rw [hl, ← hE.cols]; rfl
        by_cases hk : x.kind = .complex
        · obtain ⟨r', h1, y', c', h2, _⟩ := app t B x.conj c ht hB (Arr.conj_typed hx) (by simpa [Arr.conj] using hcols)
          refine ⟨y'.conj, c', ?_⟩
          rw [evalCode, bind_ok (a := r') (c1 := c) (by simp [liftE, h1])]
          simp only [hk, if_true]
          rw [bind_ok h2]; rfl
        · obtain ⟨r', h1, y', c', h2, _⟩ := app t B x c ht hB hx hcols
          refine ⟨y'.conj, c', ?_⟩
          rw [evalCode, bind_ok (a := r') (c1 := c) (by simp [liftE, h1])]
          simp only [hk, if_false]
          rw [bind_ok h2]; rfl
      | scal a ka t =>
        rw [hcd] at hc ht
        obtain ⟨B, hB, hE⟩ := hc
        have hcols : x.data.length = B.cols := by rw [hl, ← hE.cols]; rfl
        obtain ⟨r', h1, y', c', h2, _⟩ := app t B x c ht hB hx hcols
        refine ⟨Arr.smul a ka y', c', ?_⟩
        rw [evalCode, bind_ok (a := r') (c1 := c) (by simp [liftE, h1]), bind_ok h2]; rfl
      | comp oo ii =>
        rw [hcd] at hc ht
        obtain ⟨B, C, hB, hC, hd, hE⟩ := hc
        have hcols : x.data.length = C.cols := by rw [hl, ← hE.cols]; rfl
        obtain ⟨r', h1, y1, c', h2, d1, t1⟩ := app ii C x c ht.2 hC hx hcols
        obtain ⟨r2, h3, y2, c2, h4, _⟩ := app oo B y1 c' ht.1 hB t1 (by rw [d1, Mat.app_length, hd])
        refine ⟨y2, c2, ?_⟩
        rw [evalCode, bind_ok (a := r') (c1 := c) (by simp [liftE, h1]), bind_ok h2,
          bind_ok (a := r2) (c1 := c') (by simp [liftE, h3])]
        exact h4
      | add l r' =>
        rw [hcd] at hc ht
        obtain ⟨B, C, hB, hC, hd, hd', hE⟩ := hc
        have hcols : x.data.length = B.cols := by rw [hl, ← hE.cols]; rfl
        obtain ⟨r1, h1, y1, c', h2, d1, _⟩ := app l B x c ht.1 hB hx hcols
        obtain ⟨r2, h3, y2, c2, h4, d2, _⟩ := app r' C x c' ht.2 hC hx (by rw [hcols, hd'])
        refine ⟨⟨y1.kind.join y2.kind, List.zipWith (· + ·) y1.data y2.data⟩, c2, ?_⟩
        rw [evalCode, bind_ok (a := r1) (c1 := c) (by simp [liftE, h1]), bind_ok h2,
          bind_ok (a := r2) (c1 := c') (by simp [liftE, h3]), bind_ok h4]
        simp only [liftE, Arr.add, d1, d2, Mat.app_length, hd, if_true]
      | sub l r' =>
        rw [hcd] at hc ht
        obtain ⟨B, C, hB, hC, hd, hd', hE⟩ := hc
        have hcols : x.data.length = B.cols := by rw [hl, ← hE.cols]; rfl
        obtain ⟨r1, h1, y1, c', h2, d1, _⟩ := app l B x c ht.1 hB hx hcols
        obtain ⟨r2, h3, y2, c2, h4, d2, _⟩ := app r' C x c' ht.2 hC hx (by rw [hcols, hd'])
        refine ⟨⟨y1.kind.join y2.kind, List.zipWith (· - ·) y1.data y2.data⟩, c2, ?_⟩
        rw [evalCode, bind_ok (a := r1) (c1 := c) (by simp [liftE, h1]), bind_ok h2,
          bind_ok (a := r2) (c1 := c') (by simp [liftE, h3]), bind_ok h4]
        simp only [liftE, Arr.sub, d1, d2, Mat.app_length, hd, if_true]
      | gather n put take t =>
        rw [hcd] at hc ht
        obtain ⟨B, hB, rfl, hpl, htl, _⟩ := hc
        obtain ⟨htt, hput, r', o', hres, ho', htake⟩ := ht
        obtain ⟨z, hz⟩ := scatter_returns (x := x.data) hput
        obtain ⟨cs, hcs, hzN⟩ := scatter_ok hz (by rw [hl, hpl])
        have hzt : Arr.Typed ⟨x.kind, z⟩ := by
          rw [hzN]
          refine scatterN_typed _ _ _ ?_ ?_
          · intro a ha; rw [(List.mem_replicate.1 ha).2]; exact Subring.zero_mem _
          · intro p hp; exact hx _ (List.of_mem_zip hp).2
        have hzl : z.length = B.cols := by rw [hzN, scatterN_length]; simp
        obtain ⟨r2, h1, y1, c', h2, d1, _⟩ := app t B ⟨x.kind, z⟩ c htt hB hzt hzl
        have hrr : r' = r2 := by rw [hres] at h1; cases h1; rfl
        subst hrr
        obtain ⟨C, hC, hCE⟩ := resolve_ok I hB hres
        have hno : o'.nargout = B.rows := by rw [(I.ok r' o' C ho' hC).nargout, hCE.rows]
        obtain ⟨w, hw⟩ := pick_returns (y := y1.data) (take := take) (by rw [d1, Mat.app_length, ← hno]; exact htake)
        refine ⟨⟨y1.kind, w⟩, c', ?_⟩
        rw [evalCode, bind_ok (a := z) (c1 := c) (by simp [liftE, hz]),
          bind_ok (a := r') (c1 := c) (by simp [liftE, h1]), bind_ok h2,
          bind_ok (a := w) (c1 := c') (by simp [liftE, hw])]
        rfl
    obtain ⟨y, c2, hy⟩ := hcode (c.modify r (· + 1))
    have hyd := evalCode_sound I (run h fuel) (fun r B x c y c' hB hx hy => by
        obtain ⟨o', ho', hok'⟩ := I.get hB
        obtain ⟨e1, e2⟩ := I.run_sound fuel r o' B x c y c' ho' hB hx hy
        exact ⟨e1, by rw [e2], by rw [e2]; exact Mat.app_typed hok'.typed hx⟩)
      hok.code hx hl hy
    refine ⟨c2, ?_⟩
    have hnl : ¬ x.data.length ≠ o.nargin := by rw [hl, hok.nargin]; simp
    have hyl : ¬ y.data.length ≠ o.nargout := by rw [hyd, Mat.app_length, hok.nargout]; simp
    simp only [run, ho]
    rw [bind_ok (show bump r c = (.ok (), c.modify r (· + 1)) from rfl)]
    simp only [hnl, if_false]
    rw [bind_ok hy]
    simp only [hyl, if_false, Act.pure]
    rw [astype_of_mem, hyd]
    rw [hyd]
    exact Mat.app_typed hok.typed hx

theorem run_total {D : List (Mat K)} {h : Heap K} (I : HInv D h) {S : Nat → Prop} (hS : Closed h S)
    (fuel r : Nat) (A : Mat K) (x : Arr K) (c : Cnt) (hr : S r) (hlt : r < fuel) (hA : D[r]? = some A) (hx : x.Typed)
    (hl : x.data.length = A.cols) : ∃ c', run h fuel r x c = (.ok ⟨A.kind.join x.kind, A.app x.data⟩, c') := by
  obtain ⟨o, ho, hok⟩ := I.get hA
  rw [← hok.dtype]
  exact I.toV.run_total hS fuel r o A x c hr hlt ho hA hx hl

/-! ## Closed sets grow with the heap -/

theorem Frame.resolve {h h' : Heap K} (F : Frame h.length h h') {t : Tgt} (ht : t.ref < h.length) :
    resolve h' t = resolve h t := by
  unfold Linop.resolve; rw [F _ ht]

theorem resolve_lt {h : Heap K} {t : Tgt} {r : Nat} (hr : resolve h t = .ok r) : t.ref < h.length := by
  unfold Linop.resolve at hr
  split at hr
  · cases hr
  · next o ho => exact (List.getElem?_eq_some_iff.1 ho).1

theorem TgtTot.ext {h h' : Heap K} (F : Frame h.length h h') {S S' : Nat → Prop} (hSS : ∀ r, S r → S' r)
    {r r' : Nat} (hrr : r ≤ r') {t : Tgt} (ht : TgtTot h S r t) : TgtTot h' S' r' t := by
  obtain ⟨s, h1, h2, h3⟩ := ht
  exact ⟨s, by rw [F.resolve (resolve_lt h1), h1], by omega, hSS s h3⟩

theorem CodeTot.ext {h h' : Heap K} (F : Frame h.length h h') {S S' : Nat → Prop} (hSS : ∀ r, S r → S' r)
    {r r' nin : Nat} (hrr : r ≤ r') {c : Code K} (hc : CodeTot h S r nin c) : CodeTot h' S' r' nin c := by
  cases c with
  | prim f => exact hc
  | conj t => exact TgtTot.ext F hSS hrr hc
  | scal a ka t => exact TgtTot.ext F hSS hrr hc
  | comp o i => exact ⟨TgtTot.ext F hSS hrr hc.1, TgtTot.ext F hSS hrr hc.2⟩
  | add o i => exact ⟨TgtTot.ext F hSS hrr hc.1, TgtTot.ext F hSS hrr hc.2⟩
  | sub o i => exact ⟨TgtTot.ext F hSS hrr hc.1, TgtTot.ext F hSS hrr hc.2⟩
  | gather n put take t =>
    obtain ⟨h1, h2, s, o', h3, h4, h5⟩ := hc
    refine ⟨TgtTot.ext F hSS hrr h1, h2, s, o', ?_, ?_, h5⟩
    · rw [F.resolve (resolve_lt h3), h3]
    · rw [F _ (List.getElem?_eq_some_iff.1 h4).1, h4]

theorem ObjClosed.ext {h h' : Heap K} (F : Frame h.length h h') {S S' : Nat → Prop} (hSS : ∀ r, S r → S' r)
    {r : Nat} {o : Obj K} (ho : ObjClosed h S r o) : ObjClosed h' S' r o :=
  ⟨let ⟨t, h1, h2⟩ := ho.T; ⟨t, h1, hSS t h2⟩, let ⟨t, h1, h2⟩ := ho.H; ⟨t, h1, hSS t h2⟩,
    CodeTot.ext F hSS le_rfl ho.code⟩

theorem Closed.ext {h h' : Heap K} (F : Frame h.length h h') {S S' : Nat → Prop} (hSS : ∀ r, S r → S' r)
    (hc : Closed h S) {r : Nat} (hr : S r) : ∃ o, h'[r]? = some o ∧ ObjClosed h' S' r o := by
  obtain ⟨o, h1, h2⟩ := hc r hr
  exact ⟨o, by rw [F _ (List.getElem?_eq_some_iff.1 h1).1, h1], h2.ext F hSS⟩

/-! ## The constructor makes closed sets -/

theorem modify_app0 {α} (h l : List α) (f : α → α) : (h ++ l).modify h.length f = h ++ l.modify 0 f := by
  induction h with
  | nil => rfl
  | cons a h ih => simp [ih]
theorem modify_app {α} (h l : List α) (i : Nat) (f : α → α) :
    (h ++ l).modify (h.length + i) f = h ++ l.modify i f := by
  induction h with
  | nil => simp
  | cons a h ih =>
    rw [List.cons_append, List.length_cons, show h.length + 1 + i = (h.length + i) + 1 by omega,
      List.modify_succ_cons, ih]
    rfl
theorem get_app0 {α} (h l : List α) : (h ++ l)[h.length]? = l[0]? := by
  rw [List.getElem?_append_right le_rfl]; simp
theorem get_app {α} (h l : List α) (i : Nat) : (h ++ l)[h.length + i]? = l[i]? := by
  rw [List.getElem?_append_right (by omega)]; simp

/-- The information given determines transpose and adjoint on both sides: a non-complex operator with at least
one of `symmetric`, `hermitian`, `matvec_transp`, `matvec_adj`; a complex operator that is symmetric, or has
`matvec_transp` and is Hermitian or has `matvec_adj`. -/
def TwoSided (a : Args K) : Prop :=
  if a.dtype = .complex then
    a.symmetric = true ∨ (a.matvecTransp.isSome ∧ (a.matvecAdj.isSome ∨ a.hermitian = true))
  else a.symmetric = true ∨ a.hermitian = true ∨ a.matvecTransp.isSome ∨ a.matvecAdj.isSome

/-- All supplied closures return on vectors of the right size. -/
structure ArgsTot (h : Heap K) (S : Nat → Prop) (a : Args K) : Prop where
  matvec : CodeTot h S h.length a.nargin a.matvec
  matvecTransp : ∀ c, a.matvecTransp = some c → CodeTot h S h.length a.nargout c
  matvecAdj : ∀ c, a.matvecAdj = some c → CodeTot h S h.length a.nargout c
  two : TwoSided a
  top : a.transposeOf = none ∧ a.adjointOf = none ∧ a.conjugateOf = none

/-- `S` together with the first `k` new objects. -/
def addNew (S : Nat → Prop) (n k : Nat) : Nat → Prop := fun r => S r ∨ (n ≤ r ∧ r < n + k)

theorem closed_of_news {h : Heap K} {S : Nat → Prop} (hS : Closed h S) (news : List (Obj K)) (k : Nat)
    (hP : ∀ i < k, ∃ o, news[i]? = some o ∧ ObjClosed (h ++ news) (addNew S h.length k) (h.length + i) o) :
    Closed (h ++ news) (addNew S h.length k) := by
  intro r hr
  rcases hr with hr | ⟨h1, h2⟩
  · refine hS.ext (fun i hi => ?_) (fun r hr => Or.inl hr) hr
    rw [List.getElem?_append_left hi]
  · obtain ⟨o, h3, h4⟩ := hP (r - h.length) (by omega)
    have e : h.length + (r - h.length) = r := by omega
    rw [e] at h4
    exact ⟨o, by rw [← e, get_app, h3], h4⟩

theorem append_frame (h news : Heap K) : Frame h.length h (h ++ news) :=
  fun i hi => by rw [List.getElem?_append_left hi]

end Verif.Linop
