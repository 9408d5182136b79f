import Verif.Blkop.Assign

/-!
# Helper lemmas: block diagonal operators
-/

set_option linter.unusedSectionVars false

namespace Verif.Blkop
open Verif.Linop Finset

variable {K : Type} [CommRing K] [StarRing K] [DTypes K] [DecidableEq K]

/-! ## Block diagonal matrices -/

theorem locate_here {n k : Nat} (h : k < n) (ns : List Nat) : locate (n :: ns) k = (0, k) := by rw [locate, if_pos h]

theorem locate_next (n k : Nat) (ns : List Nat) :
    locate (n :: ns) (n + k) = ((locate ns k).1 + 1, (locate ns k).2) := by
  rw [locate, if_neg (by omega), Nat.add_sub_cancel_left]

theorem diagMatK_app_cons (k : DKind) (B : Mat K) (Bs : List (Mat K)) (x : List K) :
    (diagMatK k (B :: Bs)).app x = B.app (x.take B.cols) ++ (diagMatK k Bs).app (x.drop B.cols) := by
  unfold Mat.app
  simp only [diagMatK, List.map_cons, List.sum_cons]
  rw [List.range_add, List.map_append, List.map_map]
  congr 1
  · apply List.map_congr_left
    intro i hi
    have hi := List.mem_range.1 hi
    rw [Finset.sum_range_add]
    have e1 : locate (B.rows :: Bs.map Mat.rows) i = (0, i) := by rw [locate, if_pos hi]
    rw [e1]
    have z : ∑ j ∈ range (Bs.map Mat.cols).sum,
        (if 0 = (locate (B.cols :: Bs.map Mat.cols) (B.cols + j)).1 then
          ((B :: Bs)[0]?.map fun A => A.e i (locate (B.cols :: Bs.map Mat.cols) (B.cols + j)).2).getD 0 else 0) *
          x.getD (B.cols + j) 0 = 0 := by
      apply Finset.sum_eq_zero
      intro j _
      rw [locate_next, if_neg (by simp), zero_mul]
    rw [z, add_zero]
    apply Finset.sum_congr rfl
    intro j hj
    have hj := Finset.mem_range.1 hj
    rw [locate_here hj]
    simp [List.getElem?_take, hj]
  · apply List.map_congr_left
    intro i _
    simp only [Function.comp]
    rw [Finset.sum_range_add]
    have e1 : locate (B.rows :: Bs.map Mat.rows) (B.rows + i) =
        ((locate (Bs.map Mat.rows) i).1 + 1, (locate (Bs.map Mat.rows) i).2) := by
      rw [locate, if_neg (by omega), Nat.add_sub_cancel_left]
    rw [e1]
    have z : ∑ j ∈ range B.cols,
        (if (locate (Bs.map Mat.rows) i).1 + 1 = (locate (B.cols :: Bs.map Mat.cols) j).1 then
          ((B :: Bs)[(locate (Bs.map Mat.rows) i).1 + 1]?.map fun A => A.e (locate (Bs.map Mat.rows) i).2
            (locate (B.cols :: Bs.map Mat.cols) j).2).getD 0 else 0) * x.getD j 0 = 0 := by
      apply Finset.sum_eq_zero
      intro j hj
      rw [locate_here (Finset.mem_range.1 hj), if_neg (by simp), zero_mul]
    rw [z, zero_add]
    apply Finset.sum_congr rfl
    intro j _
    rw [locate_next, getD_drop]
    simp only [Nat.add_right_cancel_iff, List.getElem?_cons_succ]

theorem diagMatK_T (k : DKind) (Bs : List (Mat K)) : (diagMatK k (Bs.map Mat.T)).Eqv (diagMatK k Bs).T := by
  have e1 : (Bs.map Mat.T).map Mat.rows = Bs.map Mat.cols := by rw [List.map_map]; rfl
  have e2 : (Bs.map Mat.T).map Mat.cols = Bs.map Mat.rows := by rw [List.map_map]; rfl
  refine ⟨?_, ?_, rfl, ?_⟩
  · simp only [diagMatK, e1]; rfl
  · simp only [diagMatK, e2]; rfl
  · intro i _ j _
    simp only [diagMatK, Mat.T, e1, e2]
    by_cases h : (locate (Bs.map Mat.cols) i).1 = (locate (Bs.map Mat.rows) j).1
    · rw [if_pos h, if_pos h.symm, ← h, List.getElem?_map]
      cases Bs[(locate (Bs.map Mat.cols) i).1]? <;> rfl
    · rw [if_neg h, if_neg (Ne.symm h)]

theorem diagMatK_H (k : DKind) (Bs : List (Mat K)) : (diagMatK k (Bs.map Mat.H)).Eqv (diagMatK k Bs).H := by
  have e1 : (Bs.map Mat.H).map Mat.rows = Bs.map Mat.cols := by rw [List.map_map]; rfl
  have e2 : (Bs.map Mat.H).map Mat.cols = Bs.map Mat.rows := by rw [List.map_map]; rfl
  refine ⟨?_, ?_, rfl, ?_⟩
  · simp only [diagMatK, e1]; rfl
  · simp only [diagMatK, e2]; rfl
  · intro i _ j _
    simp only [diagMatK, Mat.H, e1, e2]
    by_cases h : (locate (Bs.map Mat.cols) i).1 = (locate (Bs.map Mat.rows) j).1
    · rw [if_pos h, if_pos h.symm, ← h, List.getElem?_map]
      cases Bs[(locate (Bs.map Mat.cols) i).1]? <;> simp [Mat.H]
    · rw [if_neg h, if_neg (Ne.symm h), star_zero]

theorem locate_cases {Bs : List (Mat K)} {i j : Nat} (hi : i < (Bs.map Mat.rows).sum) (hj : j < (Bs.map Mat.cols).sum)
    (he : (locate (Bs.map Mat.rows) i).1 = (locate (Bs.map Mat.cols) j).1) :
    ∃ A, Bs[(locate (Bs.map Mat.rows) i).1]? = some A ∧ A ∈ Bs ∧ (locate (Bs.map Mat.rows) i).2 < A.rows ∧
      (locate (Bs.map Mat.cols) j).2 < A.cols := by
  obtain ⟨a1, a2⟩ := locate_lt _ _ hi
  obtain ⟨b1, b2⟩ := locate_lt _ _ hj
  have hl : (locate (Bs.map Mat.rows) i).1 < Bs.length := by simpa using a1
  refine ⟨Bs[(locate (Bs.map Mat.rows) i).1], List.getElem?_eq_getElem hl, List.getElem_mem hl, ?_, ?_⟩
  · rw [List.getD_eq_getElem?_getD, List.getElem?_map, List.getElem?_eq_getElem hl] at a2
    exact a2
  · rw [List.getD_eq_getElem?_getD, List.getElem?_map, ← he, List.getElem?_eq_getElem hl] at b2
    exact b2

theorem diagMatK_congr (k : DKind) {Bs Cs : List (Mat K)} (h : List.Forall₂ Mat.Eqv Bs Cs) :
    (diagMatK k Bs).Eqv (diagMatK k Cs) := by
  have e1 : Bs.map Mat.rows = Cs.map Mat.rows := by
    induction h with
    | nil => rfl
    | cons h _ ih => simp [h.rows, ih]
  have e2 : Bs.map Mat.cols = Cs.map Mat.cols := by
    clear e1
    induction h with
    | nil => rfl
    | cons h _ ih => simp [h.cols, ih]
  refine ⟨?_, ?_, rfl, ?_⟩
  · simp only [diagMatK, e1]
  · simp only [diagMatK, e2]
  · intro i hi j hj
    simp only [diagMatK] at hi hj ⊢
    rw [← e1, ← e2]
    by_cases he : (locate (Bs.map Mat.rows) i).1 = (locate (Bs.map Mat.cols) j).1
    · rw [if_pos he, if_pos he]
      obtain ⟨A, hA, _, b1, b2⟩ := locate_cases hi hj he
      have hl := (List.getElem?_eq_some_iff.1 hA).1
      have hl' : (locate (Bs.map Mat.rows) i).1 < Cs.length := by rw [← h.length_eq]; exact hl
      have := (List.forall₂_iff_get.1 h).2 _ hl hl'
      simp only [List.get_eq_getElem] at this
      rw [List.getElem?_eq_getElem hl] at hA ⊢
      cases hA
      rw [List.getElem?_eq_getElem hl']
      exact this.entry _ b1 _ b2
    · rw [if_neg he, if_neg he]

/-! ## Lists of operators with known matrices -/

def GoodList (D : List (Mat K)) (S : Nat → Prop) (l : List (Option Nat)) (Bs : List (Mat K)) : Prop :=
  List.Forall₂ (fun b A => ∃ r, b = some r ∧ Good D S r A) l Bs

def AbsorbsL (k : DKind) (Bs : List (Mat K)) : Prop := ∀ A ∈ Bs, k.join A.kind = k

theorem mapM_cons_ok {α β : Type} {f : α → Except Err β} {a : α} {l : List α} {b : β} {bs : List β} (h1 : f a = .ok b)
    (h2 : l.mapM f = .ok bs) : (a :: l).mapM f = .ok (b :: bs) := by
  rw [List.mapM_cons, h1, h2]; rfl

section
variable {D : List (Mat K)} {h : Heap K} {S : Nat → Prop} (I : HInv D h) (hS : Closed h S)
include I hS

theorem GoodList.shapes {l : List (Option Nat)} {Bs : List (Mat K)} (g : GoodList D S l Bs) :
    l.mapM (blkShape h) = .ok (Bs.map fun A => (A.rows, A.cols)) := by
  induction g with
  | nil => rfl
  | cons hb _ ih =>
    obtain ⟨r, rfl, gr⟩ := hb
    exact mapM_cons_ok (gr.shape I hS) ih

theorem GoodList.typed {l : List (Option Nat)} {Bs : List (Mat K)} (g : GoodList D S l Bs) : ∀ A ∈ Bs, A.Typed := by
  induction g with
  | nil => simp
  | cons hb _ ih =>
    obtain ⟨r, rfl, gr⟩ := hb
    intro A hA
    rcases List.mem_cons.1 hA with rfl | hA
    · exact gr.typed I hS
    · exact ih A hA

theorem GoodList.attr {l : List (Option Nat)} {Bs : List (Mat K)} (g : GoodList D S l Bs) {attr : Nat → Option Nat}
    {tr : Mat K → Mat K} (hattr : ∀ r A, Good D S r A → ∃ t, attr r = some t ∧ Good D S t (tr A)) :
    ∃ l', mapAttr attr l = .ok l' ∧ GoodList D S l' (Bs.map tr) := by
  induction g with
  | nil => exact ⟨[], rfl, List.Forall₂.nil⟩
  | cons hb _ ih =>
    obtain ⟨r, rfl, gr⟩ := hb
    obtain ⟨l', h1, h2⟩ := ih
    obtain ⟨t, ht, gt⟩ := hattr r _ gr
    exact ⟨some t :: l', mapM_cons_ok (by simp only [ht]) h1, List.Forall₂.cons ⟨t, rfl, gt⟩ h2⟩

theorem GoodList.kind {l : List (Option Nat)} {Bs : List (Mat K)} (g : GoodList D S l Bs) :
    l.map (kindAt h) = Bs.map Mat.kind := by
  induction g with
  | nil => rfl
  | cons hb _ ih =>
    obtain ⟨r, rfl, gr⟩ := hb
    rw [List.map_cons, List.map_cons, ih, gr.kind I hS]

omit I hS in
theorem GoodList.congr {l : List (Option Nat)} {Bs Cs : List (Mat K)} (g : GoodList D S l Bs)
    (e : List.Forall₂ Mat.Eqv Bs Cs) : GoodList D S l Cs := by
  induction g generalizing Cs with
  | nil => cases e; exact List.Forall₂.nil
  | cons hb _ ih =>
    obtain ⟨r, rfl, gr⟩ := hb
    cases e with
    | cons e1 e2 => exact List.Forall₂.cons ⟨r, rfl, gr.congr e1⟩ (ih e2)

theorem assign_ok {k xk : DKind} {A : Mat K} (hA : A.Typed) (hk : k.join A.kind = k) {x : List K}
    (hx : (⟨xk, x⟩ : Arr K).Typed) {n : Nat} (hn : n = A.rows) :
    assignInto (k.join xk) n ⟨A.kind.join xk, A.app x⟩ = .ok (A.app x) := by
  have hle : (DTypes.sub (A.kind.join xk) : Subring K) ≤ DTypes.sub (k.join xk) := by
    have := sub_right (K := K) (k.join xk) (A.kind.join xk)
    rwa [join_absorb hk] at this
  have : (⟨A.kind.join xk, A.app x⟩ : Arr K).astype (k.join xk) = ⟨k.join xk, A.app x⟩ :=
    astype_of_mem fun a ha => hle (Mat.app_typed hA hx a ha)
  simp only [assignInto, Mat.app_length, hn, if_true, this]

theorem diagLoop_ok {k xk : DKind} {l : List (Option Nat)} {Bs : List (Mat K)} (g : GoodList D S l Bs)
    (hk : AbsorbsL k Bs) (k' : DKind) : ∀ (x : List K), (⟨xk, x⟩ : Arr K).Typed → x.length = (Bs.map Mat.cols).sum →
    ∃ ys, diagLoop h (k.join xk) xk l (Bs.map fun A => (A.rows, A.cols)) x = .ok ys ∧
      ys.flatten = (diagMatK k' Bs).app x := by
  induction g with
  | nil => intro x _ _; exact ⟨[], rfl, by simp [Mat.app, diagMatK]⟩
  | @cons b A l Bs hb g ih =>
    intro x hx hl
    obtain ⟨r, rfl, gr⟩ := hb
    have hl1 : (x.take A.cols).length = A.cols := by simp at hl ⊢; omega
    obtain ⟨ys, h1, h2⟩ := ih (fun B hB => hk B (by simp [hB])) (x.drop A.cols) (typed_drop hx _) (by
      simp at hl ⊢; omega)
    refine ⟨A.app (x.take A.cols) :: ys, ?_, ?_⟩
    · have e1 := gr.mulE I hS (typed_take hx A.cols) hl1
      have e2 := assign_ok I hS (gr.typed I hS) (hk A (by simp)) (typed_take hx A.cols) (n := A.rows) rfl
      simp only [List.map_cons, diagLoop, bind, Except.bind, e1, e2, h1]
    · rw [List.flatten_cons, h2, diagMatK_app_cons]

theorem diagMatvec_ok {k : DKind} {sizes l : List (Option Nat)} {Bs : List (Mat K)} (g : GoodList D S l Bs)
    (hs : sizes.mapM (blkShape h) = .ok (Bs.map fun A => (A.rows, A.cols))) (hk : AbsorbsL k Bs) {x : Arr K} (hx : x.Typed)
    (hl : x.data.length = (Bs.map Mat.cols).sum) :
    diagMatvec h k sizes l x = .ok ⟨k.join x.kind, (diagMatK k Bs).app x.data⟩ := by
  obtain ⟨ys, h1, h2⟩ := diagLoop_ok I hS g hk k x.data hx hl
  have e : (Bs.map fun A => (A.rows, A.cols)).map Prod.snd = Bs.map Mat.cols := by rw [List.map_map]; rfl
  simp only [diagMatvec, hs, bind, Except.bind, e, hl, ne_eq, not_true_eq_false, if_false, List.length_map,
    g.length_eq, lt_irrefl, h1, h2]

theorem diagMatK_typed {l : List (Option Nat)} {Bs : List (Mat K)} (g : GoodList D S l Bs) {k : DKind}
    (hk : AbsorbsL k Bs) : (diagMatK k Bs).Typed := by
  intro i hi j hj
  simp only [diagMatK] at hi hj ⊢
  by_cases he : (locate (Bs.map Mat.rows) i).1 = (locate (Bs.map Mat.cols) j).1
  · rw [if_pos he]
    obtain ⟨A, hA, hm, b1, b2⟩ := locate_cases hi hj he
    rw [hA]
    have hle := sub_right (K := K) k A.kind
    rw [hk A hm] at hle
    exact hle (g.typed I hS A hm _ b1 _ b2)
  · rw [if_neg he]; exact (DTypes.sub k : Subring K).zero_mem

end

/-! ## Operators in a consistent state -/

structure DiagInv (D : List (Mat K)) (h : Heap K) (S : Nat → Prop) (b : DiagOp) (Bs : List (Mat K)) : Prop where
  nargin : b.nargin = (Bs.map Mat.cols).sum
  nargout : b.nargout = (Bs.map Mat.rows).sum
  kind : AbsorbsL b.dtype Bs
  sizes : b.sizes.mapM (blkShape h) = .ok (Bs.map fun A => (A.rows, A.cols))
  blocks : GoodList D S b.blocks Bs
  blocksT : GoodList D S b.blocksT (Bs.map Mat.T)
  blocksH : GoodList D S b.blocksH (Bs.map Mat.H)

theorem dobjs_fst (b : DiagOp) (h : Heap K) : (b.objs h).1 = h.length := LinearOperator_fst _ _

theorem dobjs_T (b : DiagOp) (h : Heap K) : getT (b.objs h).2 (b.objs h).1 = some (b.objs h).1 ↔ b.symmetric = true := by
  have := ctor_T_self (K := K) b.nargin b.nargout (.prim (diagMatvec h b.dtype b.sizes b.blocks))
    (.prim (diagMatvec h b.dtype b.sizes b.blocksT)) (.prim (diagMatvec h b.dtype b.sizes b.blocksH)) b.symmetric
    b.hermitian b.dtype h
  rw [← this, show some (b.objs h).1 = some h.length by rw [dobjs_fst]]
  rfl

theorem dobjs_H (b : DiagOp) (h : Heap K) : getH (b.objs h).2 (b.objs h).1 = some (b.objs h).1 ↔
    b.hermitian = true ∧ ¬(b.symmetric = true ∧ b.dtype = .complex) := by
  have := ctor_H_self (K := K) b.nargin b.nargout (.prim (diagMatvec h b.dtype b.sizes b.blocks))
    (.prim (diagMatvec h b.dtype b.sizes b.blocksT)) (.prim (diagMatvec h b.dtype b.sizes b.blocksH)) b.symmetric
    b.hermitian b.dtype h
  rw [← this, show some (b.objs h).1 = some h.length by rw [dobjs_fst]]
  rfl

section
variable {D : List (Mat K)} {h : Heap K} {S : Nat → Prop}

theorem square_shapes {Bs : List (Mat K)} (hsq : ∀ A ∈ Bs, A.rows = A.cols) :
    (Bs.map Mat.T).map (fun A => (A.rows, A.cols)) = Bs.map (fun A => (A.rows, A.cols)) ∧
    (Bs.map Mat.H).map (fun A => (A.rows, A.cols)) = Bs.map (fun A => (A.rows, A.cols)) := by
  constructor <;>
  · rw [List.map_map]
    apply List.map_congr_left
    intro A hA
    simp [Mat.T, Mat.H, hsq A hA]

theorem DiagInv.step {env : List Nat} {mats : List (Mat K)} (I : HInv D h) (hS : Closed h S)
    (R : ReachTotal env h mats) {b : DiagOp} {Bs : List (Mat K)} (B : DiagInv D h S b Bs)
    (hsq : ∀ A ∈ Bs, A.rows = A.cols)
    (hsy : b.symmetric = true → (diagMatK b.dtype Bs).Eqv (diagMatK b.dtype Bs).T)
    (hhe : b.hermitian = true → (diagMatK b.dtype Bs).Eqv (diagMatK b.dtype Bs).H) :
    ReachTotal (env ++ [(b.objs h).1]) (b.objs h).2 (mats ++ [diagMatK b.dtype Bs]) := by
  have hkT : AbsorbsL b.dtype (Bs.map Mat.T) := by
    intro A hA; obtain ⟨C, hC, rfl⟩ := List.mem_map.1 hA; exact B.kind C hC
  have hkH : AbsorbsL b.dtype (Bs.map Mat.H) := by
    intro A hA; obtain ⟨C, hC, rfl⟩ := List.mem_map.1 hA; exact B.kind C hC
  obtain ⟨q1, q2⟩ := square_shapes hsq
  have c1 : (Bs.map Mat.T).map Mat.cols = Bs.map Mat.rows := by rw [List.map_map]; rfl
  have c2 : (Bs.map Mat.H).map Mat.cols = Bs.map Mat.rows := by rw [List.map_map]; rfl
  have fwd : ∀ x : Arr K, x.Typed → x.data.length = (diagMatK b.dtype Bs).cols → _ := fun x hx hl =>
    diagMatvec_ok I hS B.blocks B.sizes B.kind hx hl
  have tr : ∀ x : Arr K, x.Typed → x.data.length = (diagMatK b.dtype Bs).T.cols → _ := fun x hx hl =>
    diagMatvec_ok I hS B.blocksT (by rw [q1]; exact B.sizes) hkT hx (by rw [c1]; exact hl)
  have ad : ∀ x : Arr K, x.Typed → x.data.length = (diagMatK b.dtype Bs).H.cols → _ := fun x hx hl =>
    diagMatvec_ok I hS B.blocksH (by rw [q2]; exact B.sizes) hkH hx (by rw [c2]; exact hl)
  let c : Cmd K := .new (diagMatK b.dtype Bs) b.symmetric b.hermitian (diagMatvec h b.dtype b.sizes b.blocks)
    (some (diagMatvec h b.dtype b.sizes b.blocksT)) (some (diagMatvec h b.dtype b.sizes b.blocksH))
  have hw : c.WF mats := by
    refine ⟨diagMatK_typed I hS B.blocks B.kind, hsy, hhe, ?_, ?_, ?_⟩
    · intro x hx hl y hy
      rw [fwd x hx hl] at hy
      cases hy; rfl
    · intro g hg x hx hl y hy
      cases hg
      rw [tr x hx hl] at hy
      cases hy
      exact Mat.app_congr (diagMatK_T b.dtype Bs) _
    · intro g hg x hx hl y hy
      cases hg
      rw [ad x hx hl] at hy
      cases hy
      exact Mat.app_congr (diagMatK_H b.dtype Bs) _
  have hc : c.Complete := by
    refine ⟨?_, ?_, ?_, ?_⟩
    · intro x hx hl
      exact ⟨_, fwd x hx hl⟩
    · intro g hg x hx hl
      cases hg
      exact ⟨_, tr x hx hl⟩
    · intro g hg x hx hl
      cases hg
      exact ⟨_, ad x hx hl⟩
    · split <;> simp
  have he : c.exec env h = .ok (b.objs h) := by
    simp only [c, Cmd.exec, DiagOp.objs, DiagOp.args, B.nargin, B.nargout, Option.map_some]
    rfl
  obtain ⟨A, hA, R'⟩ := R.step hw hc he
  simp only [c, Cmd.spec, Except.ok.injEq] at hA
  rw [hA]
  exact R'

theorem flags_ok {l : List (Option Nat)} {Bs : List (Mat K)} (I : HInv D h) (hS : Closed h S) (g : GoodList D S l Bs) :
    ∃ fl : List (Bool × Bool), l.mapM (flagsOf h) = .ok fl ∧ fl.length = Bs.length ∧
      (fl.all Prod.fst = true → List.Forall₂ Mat.Eqv (Bs.map Mat.T) Bs) ∧
      (fl.all Prod.snd = true → List.Forall₂ Mat.Eqv (Bs.map Mat.H) Bs) := by
  induction g with
  | nil => exact ⟨[], rfl, rfl, fun _ => .nil, fun _ => .nil⟩
  | cons hb g ih =>
    obtain ⟨r, rfl, gr⟩ := hb
    obtain ⟨fl, h1, h2, h3, h4⟩ := ih
    obtain ⟨o, ho, _, _, _, hs, hh⟩ := gr.obj I hS
    refine ⟨(o.symmetric, o.hermitian) :: fl, mapM_cons_ok (by simp [flagsOf, ho]) h1, by simp [h2], ?_, ?_⟩
    · intro ha
      simp only [List.all_cons, Bool.and_eq_true] at ha
      exact .cons (hs ha.1).symm (h3 ha.2)
    · intro ha
      simp only [List.all_cons, Bool.and_eq_true] at ha
      exact .cons (hh ha.1).symm (h4 ha.2)

/-- the constructor -/
theorem mkDiag_ok (I : HInv D h) (hS : Closed h S) {l : List (Option Nat)} {Bs : List (Mat K)} (g : GoodList D S l Bs)
    (hne : Bs ≠ []) :
    ∃ op : DiagOp, mkDiag h l = .ok op ∧ DiagInv D h S op Bs ∧
      op.dtype = (Bs.map Mat.kind).foldl DKind.join .int ∧
      (op.symmetric = true → List.Forall₂ Mat.Eqv (Bs.map Mat.T) Bs) ∧
      (op.hermitian = true → List.Forall₂ Mat.Eqv (Bs.map Mat.H) Bs) ∧
      (op.symmetric = false → op.hermitian = false → op.blocks = l) := by
  obtain ⟨fl, h1, h2, h3, h4⟩ := flags_ok I hS g
  have hfl : fl ≠ [] := by
    intro e; rw [e] at h2; exact hne (List.length_eq_zero_iff.1 h2.symm)
  obtain ⟨bT, hbT, gT⟩ := g.attr I hS (attr := getT h) (tr := Mat.T) fun r A ha => ha.T I hS
  obtain ⟨bH, hbH, gH⟩ := g.attr I hS (attr := getH h) (tr := Mat.H) fun r A ha => ha.H I hS
  have hsh := g.shapes I hS
  have hk := g.kind I hS
  have e1 : (Bs.map fun A => (A.rows, A.cols)).map Prod.snd = Bs.map Mat.cols := by rw [List.map_map]; rfl
  have e2 : (Bs.map fun A => (A.rows, A.cols)).map Prod.fst = Bs.map Mat.rows := by rw [List.map_map]; rfl
  simp only [mkDiag, h1, bind, Except.bind, if_neg hfl, hsh, hbT, hbH, dobjs_T, dobjs_H, hk]
  refine ⟨_, rfl, ⟨by simp only [e1], by simp only [e2], ?_, hsh, ?_, gT, gH⟩, rfl, h3, h4, ?_⟩
  · intro A hA
    exact foldl_join_absorb _ _ _ (Or.inl (List.mem_map_of_mem hA))
  · simp only
    split
    · next hh => exact gH.congr (h4 hh.1)
    · split
      · next hh => exact gT.congr (h3 hh)
      · exact g
  · intro hs hh
    simp only at hs hh ⊢
    rw [if_neg (by rw [hh]; simp), if_neg (by rw [hs]; simp)]

theorem GoodList.set {l : List (Option Nat)} {Bs : List (Mat K)} (g : GoodList D S l Bs) {v : Nat} {B : Mat K}
    (hv : Good D S v B) : ∀ k : Nat, GoodList D S (l.set k (some v)) (Bs.set k B) := by
  induction g with
  | nil => intro k; exact List.Forall₂.nil
  | cons hb g ih =>
    intro k
    cases k with
    | zero => exact .cons ⟨v, rfl, hv⟩ g
    | succ k => exact .cons hb (ih k)

theorem shapes_set {Bs : List (Mat K)} {B C : Mat K} : ∀ {k : Nat}, Bs[k]? = some C → B.rows = C.rows → B.cols = C.cols →
    (Bs.set k B).map (fun A => (A.rows, A.cols)) = Bs.map fun A => (A.rows, A.cols) := by
  intro k hC h1 h2
  rw [List.map_set, h1, h2]
  apply List.ext_getElem (by simp)
  intro i a b
  rw [List.getElem_set]
  split
  · next e =>
    subst e
    obtain ⟨hl, e⟩ := List.getElem?_eq_some_iff.1 hC
    simp [e]
  · rfl

/-- forward products need only the forward list -/
theorem diag_fwd_products (I : HInv D h) (hS : Closed h S) {b : DiagOp} {Bs : List (Mat K)} (B : DiagInv D h S b Bs) :
    Products (b.objs h).2 1 (b.objs h).1 (diagMatK b.dtype Bs) := by
  obtain ⟨o, ho, hc, e1, e2, e3⟩ := ctor_get (K := K) b.nargin b.nargout (.prim (diagMatvec h b.dtype b.sizes b.blocks))
    (some (.prim (diagMatvec h b.dtype b.sizes b.blocksT))) (some (.prim (diagMatvec h b.dtype b.sizes b.blocksH)))
    b.symmetric b.hermitian b.dtype h
  rw [dobjs_fst]
  refine prim_products ho hc (e1.trans B.nargin) (e2.trans B.nargout) e3 (diagMatK_typed I hS B.blocks B.kind) ?_
  intro x hx hl
  exact diagMatvec_ok I hS B.blocks B.sizes B.kind hx hl

end
end Verif.Blkop
