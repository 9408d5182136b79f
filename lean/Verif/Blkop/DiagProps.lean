import Verif.Blkop.Diag
import Verif.Blkop.Props

/-!
# Property C20 (and C19 for block diagonal operators)

`mkDiag h l` is the constructor call `BlockDiagonalLinearOperator(l)`, `op.objs h` the operator object and the heap it lives
in.  Its flags are the conjunctions of the flags of the blocks.
-/

set_option linter.unusedSectionVars false

namespace Verif.Blkop
open Verif.Linop Finset

variable {K : Type} [CommRing K] [StarRing K] [DTypes K] [DecidableEq K]

theorem BlockList.good {env : List Nat} {mats : List (Mat K)} {D : List (Mat K)} {S : Nat → Prop}
    (hg : ∀ (v r : Nat) (A : Mat K), env[v]? = some r → mats[v]? = some A → Good D S r A) {l : List (Option Nat)}
    {Bs : List (Mat K)} (b : BlockList env mats l Bs) : GoodList D S l Bs := by
  induction b with
  | nil => exact .nil
  | cons hb _ ih =>
    obtain ⟨v, r, h1, h2, rfl⟩ := hb
    exact .cons ⟨r, rfl, hg v r _ h1 h2⟩ ih

theorem eqvT_all {k : DKind} {Bs : List (Mat K)} (h : List.Forall₂ Mat.Eqv (Bs.map Mat.T) Bs) :
    (diagMatK k Bs).Eqv (diagMatK k Bs).T := (diagMatK_congr k h).symm.trans (diagMatK_T k Bs)

theorem eqvH_all {k : DKind} {Bs : List (Mat K)} (h : List.Forall₂ Mat.Eqv (Bs.map Mat.H) Bs) :
    (diagMatK k Bs).Eqv (diagMatK k Bs).H := (diagMatK_congr k h).symm.trans (diagMatK_H k Bs)

theorem square_of_T {Bs : List (Mat K)} (h : List.Forall₂ Mat.Eqv (Bs.map Mat.T) Bs) : ∀ A ∈ Bs, A.rows = A.cols := by
  induction Bs with
  | nil => simp
  | cons B Bs ih =>
    cases h with
    | cons h1 h2 =>
      intro A hA
      rcases List.mem_cons.1 hA with rfl | hA
      · exact h1.rows.symm
      · exact ih h2 A hA

theorem square_of_H {Bs : List (Mat K)} (h : List.Forall₂ Mat.Eqv (Bs.map Mat.H) Bs) : ∀ A ∈ Bs, A.rows = A.cols := by
  induction Bs with
  | nil => simp
  | cons B Bs ih =>
    cases h with
    | cons h1 h2 =>
      intro A hA
      rcases List.mem_cons.1 hA with rfl | hA
      · exact h1.rows.symm
      · exact ih h2 A hA

/-! ## C20 -/

/-- **C20** (partial: square blocks; for the others see `C20_forward_partial`, `C20_rectangular_transpose`).  For every non-empty
list of *square* blocks the constructor succeeds, and the operator acts as the block diagonal matrix, with `.T` and `.H` acting
as its transpose and adjoint.  It can be used like any other operator in the rest of the program. -/
theorem C20_square_partial {env : List Nat} {h : Heap K} {mats : List (Mat K)} (R : ReachTotal env h mats)
    {l : List (Option Nat)} {Bs : List (Mat K)} (g : BlockList env mats l Bs) (hne : Bs ≠ [])
    (hsq : ∀ A ∈ Bs, A.rows = A.cols) :
    ∃ op : DiagOp, mkDiag h l = .ok op ∧ ActsAs (op.objs h).2 (op.objs h).1 (diagMat Bs) ∧
      ReachTotal (env ++ [(op.objs h).1]) (op.objs h).2 (mats ++ [diagMat Bs]) := by
  obtain ⟨D, S, I, hS, hg⟩ := reach_good R
  obtain ⟨op, h1, B, h2, h3, h4, _⟩ := mkDiag_ok I hS (g.good hg) hne
  have e : diagMatK op.dtype Bs = diagMat Bs := by rw [h2]; rfl
  have R' := B.step I hS R hsq (fun h => eqvT_all (h3 h)) (fun h => eqvH_all (h4 h))
  rw [e] at R'
  exact ⟨op, h1, reach_actsAs R' (i := env.length) (by simp) (by simp [R.reach.len]), R'⟩

theorem Products.represents {h : Heap K} {r : Nat} {A : Mat K} {o : Obj K} (ho : h[r]? = some o) (h1 : o.nargin = A.cols)
    (h2 : o.nargout = A.rows) (h3 : o.dtype = A.kind) (hs : o.symmetric = true → A.Eqv A.T)
    (hh : o.hermitian = true → A.Eqv A.H) (hp : Products h 1 r A) : Represents h r A where
  shape := ⟨o, ho, h1, h2, h3, hs, hh⟩
  product := by
    intro fuel x c y c' hx hrun
    cases fuel with
    | zero => simp [run, Act.raise] at hrun
    | succ fuel =>
      by_cases hl : x.data.length = A.cols
      · obtain ⟨c1, hc⟩ := hp fuel x c hx hl
        rw [hc] at hrun
        cases hrun
        exact ⟨hl, rfl⟩
      · exfalso
        have : x.data.length ≠ o.nargin := by rw [h1]; exact hl
        rw [run, ho] at hrun
        generalize run h fuel = g at hrun
        simp [bump, this, Act.raise, bind, Act.bind] at hrun

/-- **C20** (partial: no `.T`, `.H`).  For a non-empty list of blocks of any shapes the constructor succeeds, and products with the
operator are products with the block diagonal matrix. -/
theorem C20_forward_partial {env : List Nat} {h : Heap K} {mats : List (Mat K)} (R : ReachTotal env h mats)
    {l : List (Option Nat)} {Bs : List (Mat K)} (g : BlockList env mats l Bs) (hne : Bs ≠ []) :
    ∃ op : DiagOp, mkDiag h l = .ok op ∧ Represents (op.objs h).2 (op.objs h).1 (diagMat Bs) ∧
      Total (op.objs h).2 (op.objs h).1 (diagMat Bs) := by
  obtain ⟨D, S, I, hS, hg⟩ := reach_good R
  obtain ⟨op, h1, B, h2, h3, h4, _⟩ := mkDiag_ok I hS (g.good hg) hne
  have e : diagMatK op.dtype Bs = diagMat Bs := by rw [h2]; rfl
  have hP := diag_fwd_products I hS B
  obtain ⟨o, ho, e1, e2, e3, e4, e5⟩ : ∃ o, (op.objs h).2[(op.objs h).1]? = some o ∧ o.nargin = op.nargin ∧
      o.nargout = op.nargout ∧ o.dtype = op.dtype ∧ o.symmetric = op.symmetric ∧ o.hermitian = op.hermitian := by
    obtain ⟨nin, nout, sy, he, dt, sz, own, G1, G2, G3⟩ := op
    by_cases hk : dt = .complex
    · subst hk
      unfold DiagOp.objs DiagOp.args
      simp only [LinearOperator_complex]
      cases sy <;> cases he <;> simp [newComplex, mkFwd]
    · unfold DiagOp.objs DiagOp.args
      simp only [LinearOperator_real _ _ _ _ _ _ _ _ hk]
      cases sy <;> cases he <;> simp [newReal, mkFwd]
  rw [← e]
  refine ⟨op, h1, hP.represents ho (e1.trans B.nargin) (e2.trans B.nargout) e3 (fun hs => eqvT_all (h3 (e4 ▸ hs)))
    (fun hs => eqvH_all (h4 (e5 ▸ hs))), hP.total ?_⟩
  have := (List.getElem?_eq_some_iff.1 ho).1
  omega

section
variable {D : List (Mat K)} {h : Heap K} {S : Nat → Prop}

theorem mulE_wrong (I : HInv D h) (hS : Closed h S) {r : Nat} {A : Mat K} (g : Good D S r A) {x : Arr K}
    (hl : x.data.length ≠ A.cols) : ∃ e, mulE h r x = .error e := by
  obtain ⟨o, ho, h1, _⟩ := g.obj I hS
  have hlen := (List.getElem?_eq_some_iff.1 ho).1
  obtain ⟨f, hf⟩ : ∃ f, h.length = f + 1 := ⟨h.length - 1, by omega⟩
  have : x.data.length ≠ o.nargin := by rw [h1]; exact hl
  refine ⟨.valueError, ?_⟩
  unfold mulE
  rw [hf, run, ho]
  generalize run h f = q
  simp [bump, this, Act.raise, bind, Act.bind]

theorem diagLoop_rect (I : HInv D h) (hS : Closed h S) {tr : Mat K → Mat K} (htr : ∀ A, (tr A).cols = A.rows) {yk xk : DKind} :
    ∀ (Bs : List (Mat K)) (l : List (Option Nat)), GoodList D S l (Bs.map tr) → (∃ A ∈ Bs, A.rows ≠ A.cols) →
    ∀ x : List K, x.length = (Bs.map Mat.cols).sum →
    ∃ e, diagLoop h yk xk l (Bs.map fun A => (A.rows, A.cols)) x = .error e := by
  intro Bs
  induction Bs with
  | nil => intro l _ h1; simp at h1
  | cons B Bs ih =>
    intro l g hex x hx
    cases g with
    | @cons b _ l _ hb g =>
    obtain ⟨r, rfl, gr⟩ := hb
    have hl : (x.take B.cols).length = B.cols := by simp at hx ⊢; omega
    by_cases hB : B.rows = B.cols
    · have hex' : ∃ A ∈ Bs, A.rows ≠ A.cols := by
        obtain ⟨A, hA, hn⟩ := hex
        rcases List.mem_cons.1 hA with rfl | hA
        · exact absurd hB hn
        · exact ⟨A, hA, hn⟩
      obtain ⟨e, he⟩ := ih l g hex' (x.drop B.cols) (by simp at hx ⊢; omega)
      simp only [List.map_cons, diagLoop, bind, Except.bind]
      cases mulE h r ⟨xk, x.take B.cols⟩ with
      | error e => exact ⟨e, rfl⟩
      | ok v =>
        simp only
        cases assignInto yk B.rows v with
        | error e => exact ⟨e, rfl⟩
        | ok y => simp only [he]; exact ⟨e, rfl⟩
    · obtain ⟨e, he⟩ := mulE_wrong I hS gr (x := ⟨xk, x.take B.cols⟩) (by
        rw [htr]; simp only [hl]; exact Ne.symm hB)
      exact ⟨e, by simp only [List.map_cons, diagLoop, bind, Except.bind, he]⟩

theorem diagMatvec_rect (I : HInv D h) (hS : Closed h S) {tr : Mat K → Mat K} (htr : ∀ A, (tr A).cols = A.rows) {k : DKind}
    {sizes l : List (Option Nat)} {Bs : List (Mat K)} (g : GoodList D S l (Bs.map tr))
    (hs : sizes.mapM (blkShape h) = .ok (Bs.map fun A => (A.rows, A.cols))) (hex : ∃ A ∈ Bs, A.rows ≠ A.cols) (x : Arr K) :
    ∃ e, diagMatvec h k sizes l x = .error e := by
  have e : (Bs.map fun A => (A.rows, A.cols)).map Prod.snd = Bs.map Mat.cols := by rw [List.map_map]; rfl
  have hlen : l.length = Bs.length := by rw [g.length_eq, List.length_map]
  simp only [diagMatvec, hs, bind, Except.bind, e, List.length_map, hlen, lt_irrefl, if_false]
  by_cases hl : x.data.length = (Bs.map Mat.cols).sum
  · obtain ⟨e, he⟩ := diagLoop_rect I hS htr (yk := k.join x.kind) (xk := x.kind) Bs l g hex x.data hl
    exact ⟨e, by simp only [hl, ne_eq, not_true_eq_false, if_false, he]⟩
  · exact ⟨.shapeError, by simp [hl]⟩

theorem run_prim_error {r : Nat} {o : Obj K} {f : Fn K} (ho : h[r]? = some o) (hc : o.code = .prim f)
    (hf : ∀ x, ∃ e, f x = .error e) (fuel : Nat) (x : Arr K) (c : Cnt) : ∃ e c', run h fuel r x c = (.error e, c') := by
  cases fuel with
  | zero => exact ⟨_, _, rfl⟩
  | succ fuel =>
    cases hr : run h (fuel + 1) r x c with
    | mk y c' =>
      cases y with
      | error e => exact ⟨e, c', rfl⟩
      | ok y =>
        exfalso
        obtain ⟨e, he⟩ := hf x
        rw [run, ho] at hr
        generalize run h fuel = q at hr
        simp only [hc, evalCode, bump, bind, Act.bind, he] at hr
        split at hr <;> simp_all [Act.raise, liftE, Act.bind]

end

/-- **C20 (violated).**  As soon as one block is not square, every product with `.T` and every product with `.H` raises: the
slices are taken with the sizes of the untransposed blocks. -/
theorem C20_rectangular_transpose {env : List Nat} {h : Heap K} {mats : List (Mat K)} (R : ReachTotal env h mats)
    {l : List (Option Nat)} {Bs : List (Mat K)} (g : BlockList env mats l Bs) (hex : ∃ A ∈ Bs, A.rows ≠ A.cols) :
    ∃ (op : DiagOp) (t u : Nat), mkDiag h l = .ok op ∧ getT (op.objs h).2 (op.objs h).1 = some t ∧
      getH (op.objs h).2 (op.objs h).1 = some u ∧
      (∀ fuel x c, ∃ e c', run (op.objs h).2 fuel t x c = (.error e, c')) ∧
      (∀ fuel x c, ∃ e c', run (op.objs h).2 fuel u x c = (.error e, c')) := by
  obtain ⟨D, S, I, hS, hg⟩ := reach_good R
  have hne : Bs ≠ [] := by rintro rfl; simp at hex
  obtain ⟨op, h1, B, h2, h3, h4, _⟩ := mkDiag_ok I hS (g.good hg) hne
  obtain ⟨A, hA, hn⟩ := hex
  have f1 : op.symmetric = false := by
    cases hs : op.symmetric with
    | false => rfl
    | true => exact absurd (square_of_T (h3 hs) A hA) hn
  have f2 : op.hermitian = false := by
    cases hs : op.hermitian with
    | false => rfl
    | true => exact absurd (square_of_H (h4 hs) A hA) hn
  have rT := diagMatvec_rect I hS (tr := Mat.T) (fun _ => rfl) (k := op.dtype) B.blocksT B.sizes ⟨A, hA, hn⟩
  have rH := diagMatvec_rect I hS (tr := Mat.H) (fun _ => rfl) (k := op.dtype) B.blocksH B.sizes ⟨A, hA, hn⟩
  obtain ⟨t, u, ot, ou, ht, hu, hot, hou, hct, hcu⟩ : ∃ t u ot ou, getT (op.objs h).2 (op.objs h).1 = some t ∧
      getH (op.objs h).2 (op.objs h).1 = some u ∧ (op.objs h).2[t]? = some ot ∧ (op.objs h).2[u]? = some ou ∧
      ot.code = .prim (diagMatvec h op.dtype op.sizes op.blocksT) ∧
      ou.code = .prim (diagMatvec h op.dtype op.sizes op.blocksH) := by
    clear h1 h2 h3 h4 B rT rH
    obtain ⟨nin, nout, sy, he, dt, sz, own, G1, G2, G3⟩ := op
    simp only at f1 f2
    subst f1 f2
    by_cases hk : dt = .complex
    · subst hk
      unfold DiagOp.objs DiagOp.args
      simp only [LinearOperator_complex]
      exact ⟨h.length + 1, h.length + 2, _, _, by simp [getT, newComplex, mkFwd], by simp [getH, newComplex, mkFwd],
        by simp [newComplex]; rfl, by simp [newComplex]; rfl, rfl, rfl⟩
    · unfold DiagOp.objs DiagOp.args
      simp only [LinearOperator_real _ _ _ _ _ _ _ _ hk]
      exact ⟨h.length + 1, h.length + 2, _, _, by simp [getT, newReal, mkFwd], by simp [getH, newReal, mkFwd],
        by simp [newReal]; rfl, by simp [newReal]; rfl, rfl, rfl⟩
  exact ⟨op, t, u, h1, ht, hu, fun fuel x c => run_prim_error hot hct rT fuel x c,
    fun fuel x c => run_prim_error hou hcu rH fuel x c⟩

/-- **C20, empty list.**  `BlockDiagonalLinearOperator([])` raises. -/
theorem C20_empty (h : Heap K) : mkDiag h [] = .error .typeError := rfl

/-! ## C19 for block diagonal operators -/

/-- A sequence of assignments `op[i] = blk` (`blk` a variable of the program of the shape of the block it replaces and of a dtype
class within `k`; symmetric or hermitian if the operator was built as such) turns the blocks `Bs` into `Bs'`. -/
inductive DiagAssigned (env : List Nat) (mats : List (Mat K)) (sym herm : Bool) (k : DKind) :
    List (Int × Nat) → List (Mat K) → List (Mat K) → Prop
  | nil (Bs) : DiagAssigned env mats sym herm k [] Bs Bs
  | cons {i : Int} {p v r : Nat} {B C : Mat K} {as Bs Bs'} (hi : pyIndex Bs.length i = some p) (hr : env[v]? = some r)
      (hB : mats[v]? = some B) (hC : Bs[p]? = some C) (hrows : B.rows = C.rows) (hcols : B.cols = C.cols)
      (hk : k.join B.kind = k) (hs : sym = true → B.Eqv B.T) (hh : herm = true → B.Eqv B.H)
      (rest : DiagAssigned env mats sym herm k as (Bs.set p B) Bs') :
      DiagAssigned env mats sym herm k ((i, r) :: as) Bs Bs'

/-- run a sequence of assignments -/
def setAllD (h : Heap K) (op : DiagOp) (as : List (Int × Nat)) : Except Err DiagOp :=
  as.foldlM (fun o a => o.set h a.1 a.2) op

theorem LinearOperator_irrel (nin nout : Nat) (mv t t' u u' : Code K) (sy he : Bool) (dt : DKind) (h : Heap K)
    (ht : sy = false → t = t') (hu : he = false → u = u') :
    LinearOperator ⟨nin, nout, mv, some t, some u, sy, he, dt, none, none, none⟩ h =
      LinearOperator ⟨nin, nout, mv, some t', some u', sy, he, dt, none, none, none⟩ h := by
  by_cases hk : dt = .complex
  · subst hk
    simp only [LinearOperator_complex]
    cases sy <;> cases he <;> simp_all [newComplex, mkFwd, mkBwd, mkConj]
  · simp only [LinearOperator_real _ _ _ _ _ _ _ _ hk]
    cases sy <;> cases he <;> simp_all [newReal, mkFwd, mkBwd]

/-- the lists that are read are up to date -/
structure Fresh (D : List (Mat K)) (h : Heap K) (S : Nat → Prop) (o : DiagOp) (Bs : List (Mat K)) : Prop where
  nargin : o.nargin = (Bs.map Mat.cols).sum
  nargout : o.nargout = (Bs.map Mat.rows).sum
  kind : AbsorbsL o.dtype Bs
  sizes : o.sizes.mapM (blkShape h) = .ok (Bs.map fun A => (A.rows, A.cols))
  blocks : GoodList D S o.blocks Bs
  blocksT : o.symmetric = false → GoodList D S o.blocksT (Bs.map Mat.T)
  blocksH : o.hermitian = false → GoodList D S o.blocksH (Bs.map Mat.H)
  sym : o.symmetric = true → List.Forall₂ Mat.Eqv (Bs.map Mat.T) Bs
  herm : o.hermitian = true → List.Forall₂ Mat.Eqv (Bs.map Mat.H) Bs

theorem forall2_set {α β : Type} {R : α → β → Prop} {l : List α} {m : List β} (h : List.Forall₂ R l m) {a : α} {b : β}
    (hab : R a b) : ∀ k : Nat, List.Forall₂ R (l.set k a) (m.set k b) := by
  induction h with
  | nil => intro k; exact .nil
  | cons h1 h2 ih =>
    intro k
    cases k with
    | zero => exact .cons hab h2
    | succ k => exact .cons h1 (ih k)

section
variable {D : List (Mat K)} {h : Heap K} {S : Nat → Prop}

theorem Fresh.inv (I : HInv D h) (hS : Closed h S) {o : DiagOp} {Bs : List (Mat K)} (f : Fresh D h S o Bs) :
    ∃ o', DiagInv D h S o' Bs ∧ o'.objs h = o.objs h ∧ o'.symmetric = o.symmetric ∧ o'.hermitian = o.hermitian ∧
      o'.dtype = o.dtype := by
  obtain ⟨bT, hbT, gT⟩ := f.blocks.attr I hS (attr := getT h) (tr := Mat.T) fun r A ha => ha.T I hS
  obtain ⟨bH, hbH, gH⟩ := f.blocks.attr I hS (attr := getH h) (tr := Mat.H) fun r A ha => ha.H I hS
  refine ⟨{ o with blocksT := if o.symmetric = true then bT else o.blocksT,
                   blocksH := if o.hermitian = true then bH else o.blocksH },
    ⟨f.nargin, f.nargout, f.kind, f.sizes, f.blocks, ?_, ?_⟩, ?_, rfl, rfl, rfl⟩
  · simp only
    split
    · exact gT
    · next hs => exact f.blocksT (by simpa using hs)
  · simp only
    split
    · exact gH
    · next hs => exact f.blocksH (by simpa using hs)
  · unfold DiagOp.objs DiagOp.args
    apply LinearOperator_irrel
    · intro hs
      have hs : ¬ o.symmetric = true := by rw [show o.symmetric = false from hs]; simp
      simp only [if_neg hs]
    · intro hs
      have hs : ¬ o.hermitian = true := by rw [show o.hermitian = false from hs]; simp
      simp only [if_neg hs]

theorem Fresh.set (I : HInv D h) (hS : Closed h S) {o : DiagOp} {Bs : List (Mat K)} (b : Fresh D h S o Bs) {i : Int}
    {k v : Nat} (hi : pyIndex Bs.length i = some k)
    {B C : Mat K} (hC : Bs[k]? = some C) (hv : Good D S v B) (hr : B.rows = C.rows) (hc : B.cols = C.cols)
    (hk : o.dtype.join B.kind = o.dtype) (hs : o.symmetric = true → B.Eqv B.T) (hh : o.hermitian = true → B.Eqv B.H) :
    ∃ o', o.set h i v = .ok o' ∧ Fresh D h S o' (Bs.set k B) ∧ o'.symmetric = o.symmetric ∧ o'.hermitian = o.hermitian ∧
      o'.dtype = o.dtype ∧ o'.nargin = o.nargin ∧ o'.nargout = o.nargout := by
  have g := b.blocks.set hv k
  obtain ⟨bT, hbT, gT⟩ := g.attr I hS (attr := getT h) (tr := Mat.T) fun r A ha => ha.T I hS
  obtain ⟨bH, hbH, gH⟩ := g.attr I hS (attr := getH h) (tr := Mat.H) fun r A ha => ha.H I hS
  have hsh := g.shapes I hS
  have hse := shapes_set hC hr hc
  have e1 : (Bs.set k B).map Mat.cols = Bs.map Mat.cols := by
    have := congrArg (List.map Prod.snd) hse
    rw [List.map_map, List.map_map] at this
    exact this
  have e2 : (Bs.set k B).map Mat.rows = Bs.map Mat.rows := by
    have := congrArg (List.map Prod.fst) hse
    rw [List.map_map, List.map_map] at this
    exact this
  have hlen : o.blocks.length = Bs.length := b.blocks.length_eq
  have hset : o.set h i v = .ok
      ⟨o.nargin, o.nargout, o.symmetric, o.hermitian, o.dtype, if o.own then o.blocks.set k (some v) else o.sizes, o.own,
        o.blocks.set k (some v), if o.symmetric = true then o.blocksT else bT,
        if o.hermitian = true then o.blocksH else bH⟩ := by
    obtain ⟨nin, nout, sy, he, dt, sz, own, G1, G2, G3⟩ := o
    simp only at hlen hbT hbH
    cases sy <;> cases he <;>
      simp only [DiagOp.set, hlen, hi, hbT, hbH, bind, Except.bind, Bool.false_eq_true, if_false, if_true]
  refine ⟨_, hset, ⟨?_, ?_, ?_, ?_, g, ?_, ?_, ?_, ?_⟩, rfl, rfl, rfl, rfl, rfl⟩
  · rw [e1]; exact b.nargin
  · rw [e2]; exact b.nargout
  · intro A hA
    rcases List.mem_or_eq_of_mem_set hA with h1 | h1
    · exact b.kind A h1
    · rw [h1]; exact hk
  · simp only
    split
    · exact hsh
    · rw [hse]; exact b.sizes
  · intro hs
    simp only at hs ⊢
    rw [if_neg (by rw [hs]; simp)]
    exact gT
  · intro hs
    simp only at hs ⊢
    rw [if_neg (by rw [hs]; simp)]
    exact gH
  · intro h1
    rw [List.map_set]
    exact forall2_set (b.sym h1) (hs h1).symm k
  · intro h1
    rw [List.map_set]
    exact forall2_set (b.herm h1) (hh h1).symm k

end

theorem diag_pointers (o o' : DiagOp) (h : Heap K) (e1 : o'.symmetric = o.symmetric) (e2 : o'.hermitian = o.hermitian)
    (e3 : o'.dtype = o.dtype) :
    (o'.objs h).1 = (o.objs h).1 ∧ getT (o'.objs h).2 (o'.objs h).1 = getT (o.objs h).2 (o.objs h).1 ∧
      getH (o'.objs h).2 (o'.objs h).1 = getH (o.objs h).2 (o.objs h).1 := by
  obtain ⟨nin, nout, sy, he, dt, sz, own, G1, G2, G3⟩ := o
  obtain ⟨nin', nout', sy', he', dt', sz', own', G1', G2', G3'⟩ := o'
  simp only at e1 e2 e3
  subst e1 e2 e3
  unfold DiagOp.objs DiagOp.args
  by_cases hk : dt' = .complex
  · subst hk
    simp only [LinearOperator_complex]
    cases sy' <;> cases he' <;> simp [newComplex, mkFwd, getT, getH]
  · simp only [LinearOperator_real _ _ _ _ _ _ _ _ hk]
    cases sy' <;> cases he' <;> simp [newReal, mkFwd, getT, getH]

/-- **C19, block diagonal operators** (partial: square blocks).  After any sequence of assignments of fitting blocks the operator
(same object, same `.T` and `.H` objects) acts as the block diagonal matrix with the blocks replaced; if the operator is flagged
symmetric (hermitian), the new blocks have to be symmetric (hermitian). -/
theorem C19_diag_partial {env : List Nat} {h : Heap K} {mats : List (Mat K)} (R : ReachTotal env h mats)
    {l : List (Option Nat)} {Bs : List (Mat K)} (g : BlockList env mats l Bs) (hne : Bs ≠ [])
    (hsq : ∀ A ∈ Bs, A.rows = A.cols) :
    ∃ op : DiagOp, mkDiag h l = .ok op ∧ ∀ (as : List (Int × Nat)) (Bs' : List (Mat K)),
      DiagAssigned env mats op.symmetric op.hermitian (diagMat Bs).kind as Bs Bs' →
      ∃ op' : DiagOp, setAllD h op as = .ok op' ∧
        ActsAs (op'.objs h).2 (op'.objs h).1 (diagMatK (diagMat Bs).kind Bs') ∧
        (op'.objs h).1 = (op.objs h).1 ∧
        getT (op'.objs h).2 (op'.objs h).1 = getT (op.objs h).2 (op.objs h).1 ∧
        getH (op'.objs h).2 (op'.objs h).1 = getH (op.objs h).2 (op.objs h).1 := by
  obtain ⟨D, S, I, hS, hg⟩ := reach_good R
  obtain ⟨op, h1, B, h2, h3, h4, _⟩ := mkDiag_ok I hS (g.good hg) hne
  have e : op.dtype = (diagMat Bs).kind := h2
  refine ⟨op, h1, ?_⟩
  have key : ∀ (as : List (Int × Nat)) (sym herm : Bool) (k : DKind) (Bs Bs' : List (Mat K)),
      DiagAssigned env mats sym herm k as Bs Bs' → ∀ o : DiagOp, Fresh D h S o Bs → (∀ A ∈ Bs, A.rows = A.cols) →
      o.symmetric = sym → o.hermitian = herm → o.dtype = k → ∃ o', setAllD h o as = .ok o' ∧ Fresh D h S o' Bs' ∧
      o'.symmetric = sym ∧ o'.hermitian = herm ∧ o'.dtype = k ∧ (∀ A ∈ Bs', A.rows = A.cols) := by
    intro as sym herm k Bs Bs' hA
    induction hA with
    | nil Bs => intro o F hq e1 e2 e3; exact ⟨o, rfl, F, e1, e2, e3, hq⟩
    | @cons i p v r B C as Bs Bs' hi hr hB hC hrows hcols hk hs hh rest ih =>
      intro o F hq e1 e2 e3
      subst e1 e2 e3
      obtain ⟨o1, f1, F1, q1, q2, q3, _, _⟩ := F.set I hS hi hC (hg _ _ _ hr hB) hrows hcols hk hs hh
      obtain ⟨o', f2, r⟩ := ih o1 F1 (by
        intro A hA
        rcases List.mem_or_eq_of_mem_set hA with h1 | h1
        · exact hq A h1
        · rw [h1, hrows, hcols]; exact hq C (List.mem_of_getElem? hC)) q1 q2 q3
      refine ⟨o', ?_, r⟩
      simp only [setAllD, List.foldlM_cons, f1, bind, Except.bind]
      exact f2
  intro as Bs' hA
  obtain ⟨op', s1, F, q1, q2, q3, hq⟩ := key as _ _ _ _ _ hA op
    ⟨B.nargin, B.nargout, B.kind, B.sizes, B.blocks, fun _ => B.blocksT, fun _ => B.blocksH, h3, h4⟩ hsq rfl rfl e
  obtain ⟨op'', B'', ob, w1, w2, w3⟩ := F.inv I hS
  have R' := B''.step I hS R hq (fun h => eqvT_all (F.sym (by rw [← w1]; exact h)))
    (fun h => eqvH_all (F.herm (by rw [← w2]; exact h)))
  rw [ob, w3, q3] at R'
  exact ⟨op', s1, reach_actsAs R' (i := env.length) (by simp) (by simp [R.reach.len]),
    diag_pointers op op' h q1 q2 (q3.trans e.symm)⟩

end Verif.Blkop
