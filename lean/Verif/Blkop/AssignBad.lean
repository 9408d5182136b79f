import Verif.Blkop.AssignProps

/-!
# Property C59 (violated): what does not fit is accepted

Assigning an operator of the wrong shape, or something that is not an operator, is not rejected: the block is replaced, and from
then on every product raises (`C59_diag_misfit`, `C59_diag_resized`, `C59_diag_none`, `C59_block_misfit`, `C59_block_none`); in the
remaining case, a block with one row, products may return wrong results (`IndexExamples.lean`).
-/

set_option linter.unusedSectionVars false

namespace Verif.Blkop
open Verif.Linop

variable {K : Type} [CommRing K] [StarRing K] [DTypes K] [DecidableEq K]

/-- every product with object `r` raises -/
def Broken (h : Heap K) (r : Nat) : Prop := ∀ fuel x c, ∃ e c', run h fuel r x c = (.error e, c')

/-! ## Lengths -/

theorem astype_length (x : Arr K) (k : DKind) : (x.astype k).data.length = x.data.length := by
  simp [Arr.astype]

theorem run_lengths {h : Heap K} {r : Nat} {o : Obj K} (ho : h[r]? = some o) {fuel : Nat} {x y : Arr K} {c : Cnt}
    (hr : (run h fuel r x c).1 = .ok y) : x.data.length = o.nargin ∧ y.data.length = o.nargout := by
  cases fuel with
  | zero => simp [run, Act.raise] at hr
  | succ fuel =>
    rw [run, ho] at hr
    generalize run h fuel = q at hr
    by_cases hl : x.data.length = o.nargin
    · refine ⟨hl, ?_⟩
      simp only [bind, Act.bind, bump, hl, ne_eq, not_true_eq_false, if_false] at hr
      generalize evalCode h q o.code x (c.modify r (· + 1)) = w at hr
      obtain ⟨w, c1⟩ := w
      cases w with
      | error e => simp at hr
      | ok z =>
        simp only at hr
        by_cases hz : z.data.length = o.nargout
        · simp only [hz, not_true_eq_false, if_false, Act.pure, Except.ok.injEq] at hr
          rw [← hr, astype_length, hz]
        · simp [hz, Act.raise] at hr
    · simp [hl, bind, Act.bind, bump, Act.raise] at hr

theorem prim_broken {h : Heap K} {r : Nat} {o : Obj K} {f : Fn K} (ho : h[r]? = some o) (hc : o.code = .prim f)
    (hf : ∀ x y, x.data.length = o.nargin → f x = .ok y → y.data.length ≠ o.nargout) : Broken h r := by
  intro fuel x c
  cases fuel with
  | zero => exact ⟨_, _, rfl⟩
  | succ fuel =>
    rw [run, ho]
    generalize run h fuel = q
    simp only [bind, Act.bind, bump, hc, evalCode]
    by_cases hl : x.data.length = o.nargin
    · simp only [hl, ne_eq, not_true_eq_false, if_false, Act.bind]
      cases hy : f x with
      | error e => exact ⟨_, _, rfl⟩
      | ok y =>
        have := hf x y hl hy
        simp only [liftE, this, not_false_eq_true, if_true]
        exact ⟨_, _, rfl⟩
    · simp only [hl, ne_eq, not_false_eq_true, if_true]
      exact ⟨_, _, rfl⟩

section
variable {D : List (Mat K)} {h : Heap K} {S : Nat → Prop}

theorem Good.mulE_lengths (I : HInv D h) (hS : Closed h S) {r : Nat} {A : Mat K} (g : Good D S r A) {x y : Arr K}
    (hy : Blkop.mulE h r x = .ok y) : x.data.length = A.cols ∧ y.data.length = A.rows := by
  obtain ⟨o, ho, h1, h2, _⟩ := g.obj I hS
  have := run_lengths ho hy
  rw [h1, h2] at this
  exact this

end

theorem assignInto_length {yk : DKind} {n : Nat} {v : Arr K} {y : List K} (hy : assignInto yk n v = .ok y) :
    y.length = n := by
  unfold assignInto at hy
  split at hy
  · next hn => cases hy; rw [astype_length, hn]
  · split at hy
    · cases hy; simp
    · cases hy

theorem diagLoop_inv {h : Heap K} {yk xk : DKind} : ∀ (l : List (Option Nat)) (ss : List (Nat × Nat)) (x : List K)
    (ys : List (List K)), x.length = (ss.map Prod.snd).sum → diagLoop h yk xk l ss x = .ok ys →
    (l.length = ss.length → ys.flatten.length = (ss.map Prod.fst).sum) ∧
    ∀ (a : Nat) (b : Option Nat) (s : Nat × Nat), l[a]? = some b → ss[a]? = some s →
      ∃ r x' y, b = some r ∧ x'.length = s.2 ∧ mulE h r ⟨xk, x'⟩ = .ok y
  | [], ss, x, ys, _, hy => by
    cases hy
    refine ⟨fun hl => ?_, fun a b s ha => by simp at ha⟩
    cases ss with
    | nil => rfl
    | cons => cases hl
  | _ :: _, [], x, ys, _, hy => by simp [diagLoop] at hy
  | none :: _, _ :: _, x, ys, _, hy => by simp [diagLoop] at hy
  | some r :: l, s :: ss, x, ys, hx, hy => by
    simp only [diagLoop, bind, Except.bind] at hy
    cases hm : mulE h r ⟨xk, x.take s.2⟩ with
    | error e => rw [hm] at hy; cases hy
    | ok v =>
      rw [hm] at hy
      simp only at hy
      cases ha : assignInto yk s.1 v with
      | error e => rw [ha] at hy; cases hy
      | ok y =>
        rw [ha] at hy
        simp only at hy
        cases hd : diagLoop h yk xk l ss (x.drop s.2) with
        | error e => rw [hd] at hy; cases hy
        | ok zs =>
          rw [hd] at hy
          cases hy
          have hx' : x.length = s.2 + (ss.map Prod.snd).sum := by simpa using hx
          obtain ⟨i1, i2⟩ := diagLoop_inv l ss (x.drop s.2) zs (by rw [List.length_drop]; omega) hd
          refine ⟨fun hl => ?_, ?_⟩
          · rw [List.flatten_cons, List.length_append, assignInto_length ha, i1 (by simpa using hl)]
            simp
          · intro a b s' hb hs
            cases a with
            | zero =>
              simp only [List.getElem?_cons_zero, Option.some.injEq] at hb hs
              subst hb hs
              exact ⟨r, x.take s.2, v, rfl, by rw [List.length_take]; omega, hm⟩
            | succ a => exact i2 a b s' (by simpa using hb) (by simpa using hs)

theorem diagMatvec_inv {h : Heap K} {k : DKind} {sizes l : List (Option Nat)} {x y : Arr K}
    (hy : diagMatvec h k sizes l x = .ok y) : ∃ ss, sizes.mapM (blkShape h) = .ok ss ∧
      x.data.length = (ss.map Prod.snd).sum ∧ (l.length = ss.length → y.data.length = (ss.map Prod.fst).sum) ∧
      ∀ (a : Nat) (b : Option Nat) (s : Nat × Nat), l[a]? = some b → ss[a]? = some s →
        ∃ r x' z, b = some r ∧ x'.length = s.2 ∧ mulE h r ⟨x.kind, x'⟩ = .ok z := by
  unfold diagMatvec at hy
  cases hs : sizes.mapM (blkShape h) with
  | error e => rw [hs] at hy; cases hy
  | ok ss =>
    rw [hs] at hy
    simp only [bind, Except.bind] at hy
    split at hy
    · cases hy
    · next hl =>
      have hl : x.data.length = (ss.map Prod.snd).sum := by simpa using hl
      split at hy
      · cases hy
      · cases hd : diagLoop h (k.join x.kind) x.kind l ss x.data with
        | error e => rw [hd] at hy; cases hy
        | ok ys =>
          rw [hd] at hy
          cases hy
          obtain ⟨i1, i2⟩ := diagLoop_inv l ss x.data ys hl hd
          exact ⟨ss, rfl, hl, i1, i2⟩

/-! ## Block diagonal operators -/

theorem mkDiag_own {h : Heap K} {l : List (Option Nat)} {op : DiagOp} (hm : mkDiag h l = .ok op)
    (hs : op.symmetric = false) (hh : op.hermitian = false) : op.own = true := by
  unfold mkDiag at hm
  simp only [bind, Except.bind] at hm
  split at hm
  · cases hm
  · split at hm
    · cases hm
    · split at hm
      · cases hm
      · split at hm
        · cases hm
        · split at hm
          · cases hm
          · cases hm
            simp only at hs hh ⊢
            rw [Bool.not_eq_true', decide_eq_false_iff_not, dobjs_T, dobjs_H]
            simp only [hs, hh]
            simp

/-- the operator after `op[i] = val`, with `bl` the new list of blocks -/
structure After (op op' : DiagOp) (bl : List (Option Nat)) : Prop where
  nargin : op'.nargin = op.nargin
  nargout : op'.nargout = op.nargout
  dtype : op'.dtype = op.dtype
  blocks : op'.blocks = bl
  sizes : op'.sizes = if op.own then bl else op.sizes

theorem assign_after {h : Heap K} {op : DiagOp} {idx : Idx} {v : Val} {bl : List (Option Nat)}
    (hl : listSet op.blocks idx v = .ok bl) (hv : ∀ vs, v = .list vs → vs.any Option.isNone = false) :
    After op (op.assign h idx v).1 bl := by
  unfold DiagOp.assign
  rw [if_neg (by
    cases v with
    | list vs => simp only [hv vs rfl]; simp
    | op r => simp
    | other => simp), hl]
  dsimp only
  generalize (if op.symmetric = true then Except.ok op.blocksT else mapAttr (getT h) bl) = t
  cases t with
  | error e => exact ⟨rfl, rfl, rfl, rfl, rfl⟩
  | ok bT =>
    dsimp only
    generalize (if op.hermitian = true then Except.ok op.blocksH else mapAttr (getH h) bl) = u
    cases u <;> exact ⟨rfl, rfl, rfl, rfl, rfl⟩

theorem diag_broken {h : Heap K} (op : DiagOp)
    (hb : ∀ x y, x.data.length = op.nargin → diagMatvec h op.dtype op.sizes op.blocks x = .ok y →
      y.data.length ≠ op.nargout) : Broken (op.objs h).2 (op.objs h).1 := by
  obtain ⟨o, ho, o1, o2, _, _, _, hc⟩ := diag_object op h
  refine prim_broken ho hc ?_
  rw [o1, o2]
  exact hb

theorem sum_set_ne : ∀ (l : List Nat) (p n m : Nat), l[p]? = some m → n ≠ m → (l.set p n).sum ≠ l.sum
  | [], p, n, m, h, _ => by simp at h
  | a :: l, 0, n, m, h, hn => by
    simp only [List.getElem?_cons_zero, Option.some.injEq] at h
    simp only [List.set_cons_zero, List.sum_cons]
    omega
  | a :: l, p + 1, n, m, h, hn => by
    have := sum_set_ne l p n m (by simpa using h) hn
    simp only [List.set_cons_succ, List.sum_cons]
    omega

/-- **C59 (violated), block diagonal operators.**  `op[i] = B` is accepted for an operator `B` of another shape than the block
it replaces, and afterwards every product with `op` raises: if the widths differ, and, for operators that are flagged neither
symmetric nor hermitian, also if the heights differ. -/
theorem C59_diag_misfit {env : List Nat} {h : Heap K} {mats : List (Mat K)} (R : ReachTotal env h mats)
    {l : List (Option Nat)} {Bs : List (Mat K)} (g : BlockList env mats l Bs) (hne : Bs ≠ []) :
    ∃ op : DiagOp, mkDiag h l = .ok op ∧ ∀ (i : Int) (p v r : Nat) (B C : Mat K), pyIndex Bs.length i = some p →
      Bs[p]? = some C → env[v]? = some r → mats[v]? = some B →
      (B.cols ≠ C.cols ∨ (op.symmetric = false ∧ op.hermitian = false ∧ B.rows ≠ C.rows)) →
      ∃ op' : DiagOp, op.assign h (.int i) (.op r) = (op', none) ∧ Broken (op'.objs h).2 (op'.objs h).1 := by
  obtain ⟨D, S, I, hS, hg⟩ := reach_good R
  obtain ⟨op, h1, B0, _, _, _, _⟩ := mkDiag_ok I hS (g.good hg) hne
  refine ⟨op, h1, ?_⟩
  intro i p v r B C hi hC hr hB hbad
  have hlen : op.blocks.length = Bs.length := B0.blocks.length_eq
  have gB := hg v r B hr hB
  have gl := B0.blocks.set gB p
  have hls : listSet op.blocks (.int i) (.op r) = .ok (op.blocks.set p (some r)) := by simp [listSet, hlen, hi]
  have A := assign_after (h := h) hls (fun vs hvs => by cases hvs)
  have hp := pyIndex_lt hi
  have hacc : (op.assign h (.int i) (.op r)).2 = none := by
    obtain ⟨bT, hbT, _⟩ := gl.attr I hS (attr := getT h) (tr := Mat.T) fun r A ha => ha.T I hS
    obtain ⟨bH, hbH, _⟩ := gl.attr I hS (attr := getH h) (tr := Mat.H) fun r A ha => ha.H I hS
    obtain ⟨nin, nout, sy, he, dt, sz, own, G1, G2, G3⟩ := op
    simp only at hls hbT hbH
    unfold DiagOp.assign
    cases sy <;> cases he <;> simp only [hls, hbT, hbH, Bool.false_eq_true, if_false, if_true]
  refine ⟨(op.assign h (.int i) (.op r)).1, Prod.ext rfl hacc, diag_broken _ ?_⟩
  rw [A.nargin, A.nargout, A.dtype, A.blocks, A.sizes, B0.nargin, B0.nargout]
  intro x y hx hy
  obtain ⟨ss, e1, e2, e3, e4⟩ := diagMatvec_inv hy
  by_cases ho : op.own = true
  · rw [if_pos ho, gl.shapes I hS] at e1
    cases e1
    rw [List.map_map] at e2 e3
    have c2 : (Bs.set p B).map (Prod.snd ∘ fun A : Mat K => (A.rows, A.cols)) = (Bs.map Mat.cols).set p B.cols := by
      rw [List.map_set]; rfl
    have c3 : (Bs.set p B).map (Prod.fst ∘ fun A : Mat K => (A.rows, A.cols)) = (Bs.map Mat.rows).set p B.rows := by
      rw [List.map_set]; rfl
    rw [c2] at e2
    rw [c3] at e3
    have w2 := sum_set_ne (Bs.map Mat.cols) p B.cols C.cols (by rw [List.getElem?_map, hC]; rfl)
    have w3 := sum_set_ne (Bs.map Mat.rows) p B.rows C.rows (by rw [List.getElem?_map, hC]; rfl)
    rcases hbad with hc | ⟨_, _, hc⟩
    · exact absurd (e2.symm.trans hx) (w2 hc)
    · rw [e3 (by simp [hlen])]; exact w3 hc
  · rcases hbad with hc | ⟨hs, hh, _⟩
    · exfalso
      rw [if_neg ho, B0.sizes] at e1
      cases e1
      obtain ⟨r', x', z, f1, f2, f3⟩ := e4 p (some r) (C.rows, C.cols)
        (by rw [List.getElem?_set_self (by rw [hlen]; exact hp)]) (by rw [List.getElem?_map, hC]; rfl)
      cases f1
      have := (gB.mulE_lengths I hS f3).1
      simp only at this f2
      exact hc (this.symm.trans f2)
    · exact absurd (mkDiag_own h1 hs hh) ho

/-- **C59 (violated), block diagonal operators.**  A slice may be assigned a list of another length: `op[a:b] = [..]` is accepted,
and every product raises afterwards, unless the blocks happen to have the same total shape (operators that are flagged neither
symmetric nor hermitian). -/
theorem C59_diag_resized {env : List Nat} {h : Heap K} {mats : List (Mat K)} (R : ReachTotal env h mats)
    {l : List (Option Nat)} {Bs : List (Mat K)} (g : BlockList env mats l Bs) (hne : Bs ≠ []) :
    ∃ op : DiagOp, mkDiag h l = .ok op ∧ ∀ (a b : Nat) (vs : List (Option Nat)) (Vs : List (Mat K)), a ≤ b → b ≤ Bs.length →
      BlockList env mats vs Vs → op.symmetric = false → op.hermitian = false →
      (((Bs.take a ++ Vs ++ Bs.drop b).map Mat.cols).sum ≠ (Bs.map Mat.cols).sum ∨
        ((Bs.take a ++ Vs ++ Bs.drop b).map Mat.rows).sum ≠ (Bs.map Mat.rows).sum) →
      ∃ op' : DiagOp, op.assign h (.slice ⟨some a, some b, none⟩) (.list vs) = (op', none) ∧
        Broken (op'.objs h).2 (op'.objs h).1 := by
  obtain ⟨D, S, I, hS, hg⟩ := reach_good R
  obtain ⟨op, h1, B0, _, _, _, _⟩ := mkDiag_ok I hS (g.good hg) hne
  refine ⟨op, h1, ?_⟩
  intro a b vs Vs hab hb hvs hs hh hbad
  have hlen : op.blocks.length = Bs.length := B0.blocks.length_eq
  have gv := BlockList.good hg hvs
  have gl : GoodList D S (op.blocks.take a ++ vs ++ op.blocks.drop b) (Bs.take a ++ Vs ++ Bs.drop b) :=
    List.rel_append (List.rel_append (List.forall₂_take _ B0.blocks) gv) (List.forall₂_drop _ B0.blocks)
  have hls : listSet op.blocks (.slice ⟨some a, some b, none⟩) (.list vs) =
      .ok (op.blocks.take a ++ vs ++ op.blocks.drop b) := by
    have e1 : Slice.first ⟨some (a : Int), some (b : Int), none⟩ op.blocks.length 1 = a := by
      simp only [Slice.first, Slice.clip]
      rw [if_neg (by omega), if_neg (by omega), if_neg (by omega), if_neg (by omega)]
    have e2 : Slice.bound ⟨some (a : Int), some (b : Int), none⟩ op.blocks.length 1 = b := by
      simp only [Slice.bound, Slice.clip]
      rw [if_neg (by omega), if_neg (by omega), if_neg (by omega), if_neg (by omega)]
    simp only [listSet, Slice.indices, Option.getD_none, one_ne_zero, if_false, bind, Except.bind, if_true, e1, e2,
      Int.toNat_natCast, max_eq_right hab]
  have hnn : ∀ ws, Val.list vs = .list ws → ws.any Option.isNone = false := by
    intro ws hws
    cases hws
    rw [List.any_eq_false]
    intro x hx
    obtain ⟨n, hn, rfl⟩ := List.getElem_of_mem hx
    obtain ⟨r, hr, _⟩ := (List.forall₂_iff_get.1 gv).2 n hn (by rw [← gv.length_eq]; exact hn)
    have : vs[n] = some r := hr
    rw [this]; simp
  have A := assign_after (h := h) hls hnn
  have hacc : (op.assign h (.slice ⟨some a, some b, none⟩) (.list vs)).2 = none := by
    obtain ⟨bT, hbT, _⟩ := gl.attr I hS (attr := getT h) (tr := Mat.T) fun r A ha => ha.T I hS
    obtain ⟨bH, hbH, _⟩ := gl.attr I hS (attr := getH h) (tr := Mat.H) fun r A ha => ha.H I hS
    unfold DiagOp.assign
    rw [if_neg (by simp only [hnn vs rfl]; simp), hls]
    simp only [hbT, hbH, hs, hh, Bool.false_eq_true, if_false]
  refine ⟨_, Prod.ext rfl hacc, diag_broken _ ?_⟩
  rw [A.nargin, A.nargout, A.dtype, A.blocks, A.sizes, B0.nargin, B0.nargout, if_pos (mkDiag_own h1 hs hh)]
  intro x y hx hy
  obtain ⟨ss, e1, e2, e3, _⟩ := diagMatvec_inv hy
  rw [gl.shapes I hS] at e1
  cases e1
  rw [List.map_map] at e2 e3
  rcases hbad with hc | hc
  · exact absurd (e2.symm.trans hx) hc
  · rw [e3 (by simpa using gl.length_eq)]; exact hc

/-- **C59 (violated), block diagonal operators.**  `op[i] = None` (or any other object that is neither an operator nor a list)
replaces the block: no exception at all if the operator is flagged symmetric and hermitian, and otherwise one that comes too late,
from the computation of the transposed blocks.  Afterwards every product raises. -/
theorem C59_diag_none {env : List Nat} {h : Heap K} {mats : List (Mat K)} (R : ReachTotal env h mats)
    {l : List (Option Nat)} {Bs : List (Mat K)} (g : BlockList env mats l Bs) (hne : Bs ≠ []) :
    ∃ op : DiagOp, mkDiag h l = .ok op ∧ ∀ (i : Int) (p : Nat), pyIndex Bs.length i = some p →
      ∃ (op' : DiagOp) (e : Option Err), op.assign h (.int i) .other = (op', e) ∧
        (e = none ↔ op.symmetric = true ∧ op.hermitian = true) ∧ op'.blocks = op.blocks.set p none ∧
        Broken (op'.objs h).2 (op'.objs h).1 := by
  obtain ⟨D, S, I, hS, hg⟩ := reach_good R
  obtain ⟨op, h1, B0, _, _, _, _⟩ := mkDiag_ok I hS (g.good hg) hne
  refine ⟨op, h1, ?_⟩
  intro i p hi
  have hlen : op.blocks.length = Bs.length := B0.blocks.length_eq
  have hp := pyIndex_lt hi
  have hls : listSet op.blocks (.int i) .other = .ok (op.blocks.set p none) := by simp [listSet, hlen, hi]
  have A := assign_after (h := h) hls (fun vs hvs => by cases hvs)
  have hmem : none ∈ op.blocks.set p none := List.mem_set (by rw [hlen]; exact hp) none
  have bad : ∀ attr : Nat → Option Nat, ∃ e, mapAttr attr (op.blocks.set p none) = .error e := by
    intro attr
    cases hm : mapAttr attr (op.blocks.set p none) with
    | error e => exact ⟨e, rfl⟩
    | ok bs =>
      obtain ⟨b, hb⟩ := mapM_ok_inv _ _ _ hm none hmem
      cases hb
  refine ⟨(op.assign h (.int i) .other).1, (op.assign h (.int i) .other).2, rfl, ?_, A.blocks, diag_broken _ ?_⟩
  · obtain ⟨eT, hT⟩ := bad (getT h)
    obtain ⟨eH, hH⟩ := bad (getH h)
    obtain ⟨nin, nout, sy, he, dt, sz, own, G1, G2, G3⟩ := op
    simp only at hls hT hH
    unfold DiagOp.assign
    cases sy <;> cases he <;> simp [hls, hT, hH]
  · rw [A.nargin, A.nargout, A.dtype, A.blocks, A.sizes]
    intro x y hx hy
    exfalso
    obtain ⟨ss, e1, e2, e3, e4⟩ := diagMatvec_inv hy
    split at e1
    · obtain ⟨b, hb⟩ := mapM_ok_inv _ _ _ e1 none hmem
      cases hb
    · rw [B0.sizes] at e1
      cases e1
      obtain ⟨r', x', z, f1, f2, f3⟩ := e4 p none ((Bs[p]).rows, (Bs[p]).cols)
        (by rw [List.getElem?_set_self (by rw [hlen]; exact hp)])
        (by rw [List.getElem?_map, List.getElem?_eq_getElem hp]; rfl)
      cases f1

/-! ## Block operators -/

theorem addInto_length {yk : DKind} {y z : List K} {v : Arr K} (hz : addInto yk y v = .ok z) :
    z.length = y.length ∧ (v.data.length = y.length ∨ v.data.length = 1) := by
  unfold addInto at hz
  split at hz
  · cases hz
  · split at hz
    · next hl => cases hz; rw [List.length_zipWith]; exact ⟨by omega, Or.inl hl.symm⟩
    · split at hz
      · next a hv => cases hz; rw [hv]; simp
      · cases hz

theorem blkRow_inv {h : Heap K} {yk xk : DKind} : ∀ (ws : List Nat) (row : List (Option Nat)) (x y z : List K),
    x.length = ws.sum → blkRow h yk xk ws row x y = .ok z → z.length = y.length ∧
    ∀ (q w : Nat) (b : Option Nat), ws[q]? = some w → row[q]? = some b →
      ∃ r x' v, b = some r ∧ x'.length = w ∧ mulE h r ⟨xk, x'⟩ = .ok v ∧ (v.data.length = y.length ∨ v.data.length = 1)
  | [], row, x, y, z, _, hz => by
    cases hz
    exact ⟨rfl, fun q w b hw => by simp at hw⟩
  | w :: ws, [], x, y, z, _, hz => by cases hz
  | w :: ws, none :: row, x, y, z, _, hz => by cases hz
  | w :: ws, some r :: row, x, y, z, hx, hz => by
    simp only [blkRow, bind, Except.bind] at hz
    cases hm : mulE h r ⟨xk, x.take w⟩ with
    | error e => rw [hm] at hz; cases hz
    | ok v =>
      rw [hm] at hz
      simp only at hz
      cases ha : addInto yk y v with
      | error e => rw [ha] at hz; cases hz
      | ok y' =>
        rw [ha] at hz
        simp only at hz
        have hx' : x.length = w + ws.sum := by simpa using hx
        obtain ⟨a1, a2⟩ := addInto_length ha
        obtain ⟨i1, i2⟩ := blkRow_inv ws row (x.drop w) y' z (by rw [List.length_drop]; omega) hz
        refine ⟨i1.trans a1, ?_⟩
        intro q w' b hw hb
        cases q with
        | zero =>
          simp only [List.getElem?_cons_zero, Option.some.injEq] at hw hb
          subst hw hb
          exact ⟨r, x.take w, v, rfl, by rw [List.length_take]; omega, hm, a2⟩
        | succ q =>
          obtain ⟨r', x', v', f1, f2, f3, f4⟩ := i2 q w' b (by simpa using hw) (by simpa using hb)
          exact ⟨r', x', v', f1, f2, f3, by rw [a1] at f4; exact f4⟩

theorem mapM_get {α β : Type} (f : α → Except Err β) : ∀ (l : List α) (bs : List β), l.mapM f = .ok bs →
    List.Forall₂ (fun a b => f a = .ok b) l bs
  | [], bs, h => by cases h; exact .nil
  | a :: l, bs, h => by
    rw [List.mapM_cons] at h
    cases hf : f a with
    | error e => rw [hf] at h; cases h
    | ok b =>
      rw [hf] at h
      simp only [bind, Except.bind] at h
      cases hm : l.mapM f with
      | error e => rw [hm] at h; cases h
      | ok cs =>
        rw [hm] at h
        cases h
        exact .cons hf (mapM_get f l cs hm)

section
variable {D : List (Mat K)} {h : Heap K} {S : Nat → Prop}

/-- a grid of operators of any shapes -/
theorem shapes_any (I : HInv D h) (hS : Closed h S) {nr nc : Nat} {R : Nat → Nat → Nat} {M : Nat → Nat → Mat K}
    (hR : ∀ i < nr, ∀ j < nc, Good D S (R i j) (M i j)) :
    shapes h (mkG nr nc R) = .ok ((List.range nr).map fun i => (List.range nc).map fun j => ((M i j).rows, (M i j).cols)) := by
  unfold shapes mkG
  have : ∀ row ∈ ((List.range nr).map fun i => (List.range nc).map fun j => some (R i j)),
      row.mapM (blkShape h) = .ok (row.map fun b => ((blkShape h b).toOption.getD (0, 0))) := by
    intro row hrow
    obtain ⟨i, hi, rfl⟩ := List.mem_map.1 hrow
    apply mapM_ok
    intro b hb
    obtain ⟨j, hj, rfl⟩ := List.mem_map.1 hb
    rw [(hR i (List.mem_range.1 hi) j (List.mem_range.1 hj)).shape I hS]
    rfl
  rw [mapM_ok _ _ _ this, List.map_map]
  congr 1
  apply List.map_congr_left
  intro i hi
  simp only [Function.comp, List.map_map]
  apply List.map_congr_left
  intro j hj
  have hi := List.mem_range.1 hi
  have hj := List.mem_range.1 hj
  simp only [Function.comp, (hR i hi j hj).shape I hS]
  rfl

theorem transposeGrid_any {nr nc : Nat} (R : Nat → Nat → Nat) (hr : nr ≠ 0) (attr : Nat → Option Nat) :
    ∃ G', transposeGrid attr (mkG nr nc R) = .ok G' := by
  have hmax : ((mkG nr nc R).map List.length).foldl max 0 ≤ nc := by
    have : ∀ (l : List Nat) (a : Nat), (∀ x ∈ l, x ≤ nc) → a ≤ nc → l.foldl max a ≤ nc := by
      intro l
      induction l with
      | nil => intro a _ ha; exact ha
      | cons x l ih => intro a hl ha; exact ih _ (fun y hy => hl y (by simp [hy])) (max_le ha (hl x (by simp)))
    apply this _ _ _ (Nat.zero_le _)
    intro x hx
    simp only [mkG, List.map_map, List.mem_map, Function.comp] at hx
    obtain ⟨i, _, rfl⟩ := hx
    simp
  have : transposeGrid attr (mkG nr nc R) =
      (List.range (((mkG nr nc R).map List.length).foldl max 0)).mapM (colAt attr (mkG nr nc R)) := by
    unfold transposeGrid
    cases hG : mkG nr nc R with
    | nil =>
      have : (mkG nr nc R).length = 0 := by rw [hG]; rfl
      rw [mkG_length] at this
      exact absurd this hr
    | cons a l => rfl
  rw [this]
  refine ⟨_, mapM_ok _ (fun j => (List.range nr).map fun i => attr (R i j)) _ ?_⟩
  intro j hj
  have hj : j < nc := lt_of_lt_of_le (List.mem_range.1 hj) hmax
  unfold colAt
  refine (mapM_ok _ (fun row => match row[j]? with
        | some (some r) => attr r
        | _ => none) (mkG nr nc R) ?_).trans ?_
  · intro row hrow
    obtain ⟨i, _, rfl⟩ := List.mem_map.1 hrow
    simp [hj]
  · congr 1
    simp only [mkG, List.map_map]
    apply List.map_congr_left
    intro i hi
    simp [hj]

/-- what a product that returns tells about the shapes of the blocks -/
theorem blkMatvec_inv (I : HInv D h) (hS : Closed h S) {nr nc : Nat} {R : Nat → Nat → Nat} {M : Nat → Nat → Mat K}
    (hR : ∀ i < nr, ∀ j < nc, Good D S (R i j) (M i j)) (hr : nr ≠ 0) (hc : nc ≠ 0) {k : DKind} {x y : Arr K}
    (hy : blkMatvec h k (mkG nr nc R) x = .ok y) :
    x.data.length = ((List.range nc).map fun j => (M 0 j).cols).sum ∧
    y.data.length = ((List.range nr).map fun i => (M i 0).rows).sum ∧
    ∀ i < nr, ∀ j < nc, (M i j).cols = (M 0 j).cols ∧ ((M i j).rows = (M i 0).rows ∨ (M i j).rows = 1) := by
  unfold blkMatvec at hy
  rw [shapes_any I hS hR] at hy
  have e1 : hd ((List.range nr).map fun i => (List.range nc).map fun j => ((M i j).rows, (M i j).cols)) =
      .ok ((List.range nc).map fun j => ((M 0 j).rows, (M 0 j).cols)) := by
    obtain ⟨m, rfl⟩ := Nat.exists_eq_succ_of_ne_zero hr
    rw [List.range_succ_eq_map]
    rfl
  have e2 : ((List.range nr).map fun i => (List.range nc).map fun j => ((M i j).rows, (M i j).cols)).mapM hd =
      .ok ((List.range nr).map fun i => ((M i 0).rows, (M i 0).cols)) := by
    rw [List.mapM_map]
    apply mapM_ok
    intro i _
    obtain ⟨m, rfl⟩ := Nat.exists_eq_succ_of_ne_zero hc
    rw [List.range_succ_eq_map]
    rfl
  simp only [bind, Except.bind, e1, e2, List.map_map] at hy
  have c1 : (List.range nc).map (Prod.snd ∘ fun j => ((M 0 j).rows, (M 0 j).cols)) =
    (List.range nc).map fun j => (M 0 j).cols := rfl
  have c2 : (List.range nr).map (Prod.fst ∘ fun i => ((M i 0).rows, (M i 0).cols)) =
    (List.range nr).map fun i => (M i 0).rows := rfl
  rw [c1, c2] at hy
  split at hy
  · cases hy
  · next hl =>
    have hl : x.data.length = ((List.range nc).map fun j => (M 0 j).cols).sum := by simpa using hl
    split at hy
    · cases hy
    · next ys hys =>
      cases hy
      have F := mapM_get _ _ _ hys
      have key : ∀ i < nr, ∃ z, ys[i]? = some z ∧ z.length = (M i 0).rows ∧
          ∀ j < nc, (M i j).cols = (M 0 j).cols ∧ ((M i j).rows = (M i 0).rows ∨ (M i j).rows = 1) := by
        intro i hi
        have hlen := F.length_eq
        have hli : i < ((mkG nr nc R).zip ((List.range nr).map fun i => (M i 0).rows)).length := by simp [mkG, hi]
        have := (List.forall₂_iff_get.1 F).2 i hli (by rw [← hlen]; exact hli)
        simp only [List.get_eq_getElem, List.getElem_zip, mkG, List.getElem_map, List.getElem_range] at this
        obtain ⟨b1, b2⟩ := blkRow_inv _ _ _ _ _ hl this
        refine ⟨_, List.getElem?_eq_getElem (by rw [← hlen]; exact hli), by rw [b1]; simp, ?_⟩
        intro j hj
        obtain ⟨r, x', v, f1, f2, f3, f4⟩ := b2 j (M 0 j).cols (some (R i j)) (by simp [hj]) (by simp [hj])
        cases f1
        obtain ⟨g1, g2⟩ := (hR i hi j hj).mulE_lengths I hS f3
        simp only at g1
        refine ⟨g1.symm.trans f2, ?_⟩
        rw [g2] at f4
        simpa using f4
      refine ⟨hl, ?_, fun i hi => (key i hi).choose_spec.2.2⟩
      rw [List.length_flatten]
      congr 1
      apply List.ext_getElem?
      intro i
      have hlen : ys.length = nr := by rw [← F.length_eq]; simp [mkG]
      by_cases hi : i < nr
      · obtain ⟨z, hz, hz2, _⟩ := key i hi
        simp [hz, hz2, hi]
      · rw [List.getElem?_eq_none (by simp [hlen]; omega), List.getElem?_eq_none (by simp; omega)]

theorem block_object (b : BlkOp) (h : Heap K) : ∃ o, (b.objs h).2[(b.objs h).1]? = some o ∧
    o.code = .prim (blkMatvec h b.dtype b.blocks) ∧ o.nargin = b.nargin ∧ o.nargout = b.nargout := by
  obtain ⟨o, ho, hc, e1, e2, e3⟩ := ctor_get (K := K) b.nargin b.nargout (.prim (blkMatvec h b.dtype b.blocks))
    (some (.prim (blkMatvec h b.dtype b.blocksT))) (some (.prim (blkMatvec h b.dtype b.blocksH))) b.symmetric
    b.hermitian b.dtype h
  rw [objs_fst]
  exact ⟨o, ho, hc, e1, e2⟩

end

theorem sum_map_getD (l : List Nat) : ((List.range l.length).map fun i => l.getD i 0).sum = l.sum := by
  rw [range_map_getD]

theorem map_upd_ne {n p : Nat} (f : Nat → Nat) {c : Nat} (hp : p < n) (hc : c ≠ f p) :
    ((List.range n).map fun i => if i = p then c else f i).sum ≠ ((List.range n).map f).sum := by
  have e : (List.range n).map (fun i => if i = p then c else f i) = ((List.range n).map f).set p c := by
    apply List.ext_getElem (by simp)
    intro i h1 h2
    simp only [List.getElem_map, List.getElem_range, List.getElem_set]
    by_cases hi : i = p
    · rw [if_pos hi, if_pos hi.symm]
    · rw [if_neg hi, if_neg (Ne.symm hi)]
  rw [e]
  exact sum_set_ne _ p c (f p) (by simp [hp]) hc

/-- **C59 (violated), block operators.**  `op[i, j] = B` is accepted for an operator `B` of another shape than the block it
replaces, and afterwards every product with `op` raises: if the widths differ, or if the heights differ and `B` is in the first
column or has more than one row (operators that are flagged neither symmetric nor hermitian). -/
theorem C59_block_misfit {env : List Nat} {h : Heap K} {mats : List (Mat K)} (R : ReachTotal env h mats) {G : Grid}
    {hts wds : List Nat} {M : Nat → Nat → Mat K} (g : BlockGrid env mats G hts wds M) :
    ∃ op : BlkOp, mkBlock h G false false = .ok (op, G) ∧ ∀ (i j : Int) (p q v r : Nat) (B : Mat K),
      pyIndex hts.length i = some p → pyIndex wds.length j = some q → env[v]? = some r → mats[v]? = some B →
      (B.cols ≠ wds.getD q 0 ∨ (B.rows ≠ hts.getD p 0 ∧ (q = 0 ∨ B.rows ≠ 1))) →
      ∃ op' : BlkOp, op.assign h (.int i) (some (.int j)) (some r) = (op', none) ∧
        Broken (op'.objs h).2 (op'.objs h).1 := by
  obtain ⟨D, S, I, hS, hg⟩ := reach_good R
  obtain ⟨op, h1, B0, hs, hh, _⟩ := mkBlock_plain I hS (g.good hg)
  refine ⟨op, h1, ?_⟩
  intro i j p q v r B hi hj hr hB hbad
  have hp := pyIndex_lt hi
  have hq := pyIndex_lt hj
  have gB := hg v r B hr hB
  obtain ⟨l1, l2⟩ := B0.blocks.length
  obtain ⟨Rf, e, hR⟩ := B0.blocks.grid
  have hn := B0.blocks.pos
  have hnr : hts.length ≠ 0 := by simpa using hn.1
  have hnc : wds.length ≠ 0 := by simpa using hn.2
  have hR' : ∀ a < hts.length, ∀ b < wds.length,
      Good D S (if a ∈ [p] ∧ b ∈ [q] then r else Rf a b) (updIJ M [p] [q] B a b) := by
    intro a ha b hb
    unfold updIJ
    by_cases hab : a ∈ [p] ∧ b ∈ [q]
    · simp only [if_pos hab]; exact gB
    · simp only [if_neg hab]; exact hR a ha b hb
  obtain ⟨bT, hbT⟩ := transposeGrid_any (nc := wds.length) (fun a b => if a ∈ [p] ∧ b ∈ [q] then r else Rf a b) hnr (getT h)
  obtain ⟨bH, hbH⟩ := transposeGrid_any (nc := wds.length) (fun a b => if a ∈ [p] ∧ b ∈ [q] then r else Rf a b) hnr (getH h)
  refine ⟨{ op with blocks := setAll2 op.blocks [p] [q] (some r), blocksT := bT, blocksH := bH }, ?_, ?_⟩
  · rw [← setAll2_mkG, ← e] at hbT hbH
    simp [BlkOp.assign, l1, l2, Idx.select, selectCols, hi, hj, hs, hh, hbT, hbH]
  · obtain ⟨o, ho, hc, o1, o2⟩ := block_object { op with blocks := setAll2 op.blocks [p] [q] (some r), blocksT := bT, blocksH := bH } h
    refine prim_broken ho hc ?_
    rw [o1, o2]
    dsimp only
    rw [e, setAll2_mkG, B0.nargin, B0.nargout]
    intro x y hx hy
    obtain ⟨w1, w2, w3⟩ := blkMatvec_inv I hS hR' hnr hnc hy
    have d0 : ∀ b < wds.length, (updIJ M [p] [q] B 0 b).cols = if 0 = p ∧ b = q then B.cols else wds.getD b 0 := by
      intro b hb
      unfold updIJ
      simp only [List.mem_singleton]
      split
      · rfl
      · exact B0.blocks.cols 0 (by omega) b hb
    have r0 : ∀ a < hts.length, (updIJ M [p] [q] B a 0).rows = if a = p ∧ 0 = q then B.rows else hts.getD a 0 := by
      intro a ha
      unfold updIJ
      simp only [List.mem_singleton]
      split
      · rfl
      · exact B0.blocks.rows a ha 0 (by omega)
    rcases hbad with hcb | ⟨hrb, hcase⟩
    · exfalso
      by_cases hp0 : p = 0
      · apply map_upd_ne (fun b => wds.getD b 0) hq hcb
        rw [range_map_getD, ← hx, w1]
        congr 1
        apply List.map_congr_left
        intro b hb
        rw [d0 b (List.mem_range.1 hb)]
        subst hp0
        by_cases hbq : b = q
        · simp [hbq]
        · simp [hbq]
      · have := (w3 p hp q hq).1
        rw [d0 q hq, if_neg (by rintro ⟨h, _⟩; exact hp0 h.symm)] at this
        simp [updIJ] at this
        exact hcb (by simpa using this)
    · by_cases hq0 : q = 0
      · subst hq0
        intro hc
        apply map_upd_ne (fun a => hts.getD a 0) hp hrb
        rw [range_map_getD, ← hc, w2]
        congr 1
        apply List.map_congr_left
        intro a ha
        rw [r0 a (List.mem_range.1 ha)]
        simp
      · exfalso
        have := (w3 p hp q hq).2
        rw [r0 p hp, if_neg (by rintro ⟨_, h⟩; exact hq0 h.symm)] at this
        simp only [updIJ, List.mem_singleton, and_self, if_true] at this
        rcases this with h | h
        · exact hrb h
        · rcases hcase with h' | h'
          · exact hq0 h'
          · exact h' h

/-- **C59 (violated), block operators.**  `op[i, j] = None` raises, but only after the block has been replaced: afterwards every
product raises (operators that are flagged neither symmetric nor hermitian). -/
theorem C59_block_none {env : List Nat} {h : Heap K} {mats : List (Mat K)} (R : ReachTotal env h mats) {G : Grid}
    {hts wds : List Nat} {M : Nat → Nat → Mat K} (g : BlockGrid env mats G hts wds M) :
    ∃ op : BlkOp, mkBlock h G false false = .ok (op, G) ∧ ∀ (i j : Int) (p q : Nat), pyIndex hts.length i = some p →
      pyIndex wds.length j = some q → ∃ (op' : BlkOp) (e : Err),
        op.assign h (.int i) (some (.int j)) none = (op', some e) ∧ entry op'.blocks p q = none ∧
        Broken (op'.objs h).2 (op'.objs h).1 := by
  obtain ⟨D, S, I, hS, hg⟩ := reach_good R
  obtain ⟨op, h1, B0, hs, hh, _⟩ := mkBlock_plain I hS (g.good hg)
  refine ⟨op, h1, ?_⟩
  intro i j p q hi hj
  have hp := pyIndex_lt hi
  have hq := pyIndex_lt hj
  obtain ⟨l1, l2⟩ := B0.blocks.length
  obtain ⟨Rf, e, hR⟩ := B0.blocks.grid
  have hrow : ∃ row, (setAll2 op.blocks [p] [q] none)[p]? = some row ∧ row[q]? = some none := by
    have hlp : p < (setAll2 op.blocks [p] [q] none).length := by rw [e]; simp [setAll2, mkG, hp]
    refine ⟨(setAll2 op.blocks [p] [q] none)[p], List.getElem?_eq_getElem hlp, ?_⟩
    simp only [e, setAll2, mkG, List.getElem_map, List.getElem_zipIdx, List.getElem_range, List.getElem?_map,
      List.getElem?_zipIdx, List.getElem?_range hq, Option.map_some]
    simp
  obtain ⟨row, hr1, hr2⟩ := hrow
  have hT : ∃ e, transposeGrid (getT h) (setAll2 op.blocks [p] [q] none) = .error e := by
    have hq' : q < ((setAll2 op.blocks [p] [q] none).map List.length).foldl max 0 := by
      have : ∀ (l : List Nat) (a x : Nat), x ∈ l ∨ x ≤ a → x ≤ l.foldl max a := by
        intro l
        induction l with
        | nil => intro a x hx; rcases hx with hx | hx; · simp at hx
                 · exact hx
        | cons b l ih =>
          intro a x hx
          apply ih
          rcases hx with hx | hx
          · rcases List.mem_cons.1 hx with rfl | hx
            · exact Or.inr (le_max_right _ _)
            · exact Or.inl hx
          · exact Or.inr (le_trans hx (le_max_left _ _))
      have h1 := this ((setAll2 op.blocks [p] [q] none).map List.length) 0 row.length
        (Or.inl (List.mem_map_of_mem (List.mem_of_getElem? hr1)))
      have h2 := (List.getElem?_eq_some_iff.1 hr2).1
      omega
    cases ht : transposeGrid (getT h) (setAll2 op.blocks [p] [q] none) with
    | error e => exact ⟨e, rfl⟩
    | ok G' =>
      exfalso
      unfold transposeGrid at ht
      split at ht
      · cases ht
      · obtain ⟨c, hc⟩ := mapM_ok_inv _ _ _ ht q (List.mem_range.2 hq')
        obtain ⟨d, hd⟩ := mapM_ok_inv _ _ _ hc row (List.mem_of_getElem? hr1)
        rw [hr2] at hd
        cases hd
  obtain ⟨eT, hT⟩ := hT
  refine ⟨{ op with blocks := setAll2 op.blocks [p] [q] none }, eT, ?_, ?_, ?_⟩
  · simp [BlkOp.assign, l1, l2, Idx.select, selectCols, hi, hj, hs, hh, hT]
  · simp [entry, hr1, hr2]
  · obtain ⟨o, ho, hc, o1, o2⟩ := block_object { op with blocks := setAll2 op.blocks [p] [q] none } h
    refine prim_broken ho hc ?_
    intro x y _ hy
    exfalso
    dsimp only at hy
    unfold blkMatvec at hy
    cases hsh : shapes h (setAll2 op.blocks [p] [q] none) with
    | error e => rw [hsh] at hy; cases hy
    | ok sh =>
      obtain ⟨c, hc⟩ := mapM_ok_inv _ _ _ hsh row (List.mem_of_getElem? hr1)
      obtain ⟨d, hd⟩ := mapM_ok_inv _ _ _ hc none (List.mem_of_getElem? hr2)
      cases hd

end Verif.Blkop
