import Verif.Blkop.CountLemmas
import Verif.Blkop.Examples

/-!
# C06 for block operators: the counters of the operator and of its blocks

`op.mulC h s x` is the product of a block operator `op` with blocks in the heap `h`, or of its transpose or adjoint (`s` says which),
with the array `x`, and `c` are the counters `nMatvec` of all operators before it.  `op.grid s` are the blocks used: those of the
operator, or the list of their transposes or adjoints.  `EachProductAdds h r i d` (`Verif.Linop.Props2`) says that a product with
operator `r` adds `d` to the counter of operator `i`; it holds with `d = 1` for `r = i`.
-/

set_option linter.unusedSectionVars false

namespace Verif.Blkop
open Verif.Linop

variable {K : Type} [CommRing K] [StarRing K] [DTypes K] [DecidableEq K]

/-- the operator, its transpose and its adjoint have closures of their own: true for every operator itself, for operators without flags
and for those that are not complex -/
def OwnClosure (s : Sel) (sym herm : Bool) (k : DKind) : Prop := k ≠ .complex ∨ (sym = false ∧ herm = false) ∨ s = .self

/-- block operators that the client can have: constructed, then assigned to -/
inductive Built (h : Heap K) : BlkOp → Prop
  | make {G G' : Grid} {sym herm : Bool} {b : BlkOp} : mkBlock h G sym herm = .ok (b, G') → Built h b
  | set {b b' : BlkOp} {i j : Int} {v : Nat} : Built h b → b.set h i j v = .ok b' → Built h b'

theorem Built.rect {h : Heap K} {b : BlkOp} (hb : Built h b) : b.Rect := by
  induction hb with
  | make h1 => exact mkBlock_rect h1
  | set _ h1 ih => exact set_rect ih h1

/-- **C06, block operators.** For every block operator of the client and every array, whether the product returns or raises: the
product counted here is that of `C16_block` (same result or same exception); it adds one to the counter of the operator (of the
transpose, of the adjoint).  A product with an array of the wrong size uses no block.  A product that returns adds to the counter of
any operator what one product with each block of the grid adds. -/
theorem C06_block {env : List Nat} {h : Heap K} {mats : List (Mat K)} (R : Reach env h mats) {op : BlkOp} (hop : Built h op) (s : Sel)
    (hs : OwnClosure s op.symmetric op.hermitian op.dtype) (x : Arr K) (c : Cnt) :
    ∃ q o, resolve (op.objs h).2 ⟨(op.objs h).1, s⟩ = .ok q ∧ h.length ≤ q ∧ (op.objs h).2[q]? = some o ∧
      (∀ fuel d, (op.mulC h s x c).1 = (run (op.objs h).2 (fuel + 1) q x d).1) ∧
      (op.mulC h s x c).2[q]? = c[q]?.map (· + 1) ∧
      (x.data.length ≠ o.nargin → ∀ i, i ≠ q → (op.mulC h s x c).2[i]? = c[i]?) ∧
      ∀ y c', op.mulC h s x c = (.ok y, c') → ∀ (i : Nat) (d : Nat → Nat), i < h.length →
        (∀ r, some r ∈ (op.grid s).flatten → EachProductAdds h r i (d r)) →
        c'[i]? = c[i]?.map (· + ((op.grid s).flatten.map fun b => b.elim 0 d).sum) := by
  obtain ⟨D, I, L, O, _⟩ := R.inv
  obtain ⟨q, o, h1, h2, h3, h4, h5⟩ := ctor_closures op.nargin op.nargout (.prim (blkMatvec h op.dtype op.blocks))
    (.prim (blkMatvec h op.dtype op.blocksT)) (.prim (blkMatvec h op.dtype op.blocksH)) op.symmetric op.hermitian op.dtype h s hs
    (op.objs h) rfl
  have hc : o.code = .prim (blkMatvec h op.dtype (op.grid s)) := by
    rw [h5]
    cases s <;> simp only [BlkOp.grid] <;> split <;> rfl
  have hm : op.mulC h s x = productC (op.objs h).2 (blkMatvecC h op.dtype (op.grid s)) q x := by simp only [BlkOp.mulC, h1]
  rw [hm]
  obtain ⟨n, hn⟩ := hop.rect.grid s
  refine ⟨q, o, h1, h2, h3, fun fuel d => productC_outcome h3 hc (blkMatvecC_outcome h _ _) fuel x c d,
    productC_own h3 h2 (blkMatvecC_below O _ _ _) c, fun hx i hi => ?_, fun y c' hr i d hi hd => ?_⟩
  · rw [productC_wrong h3 hx c]
    exact modify_other hi
  · exact productC_adds (Nat.ne_of_lt (Nat.lt_of_lt_of_le hi h2)) (blkMatvecC_adds hn hd x) _ _ _ hr

/-- **C06, block diagonal operators.** -/
theorem C06_diag {env : List Nat} {h : Heap K} {mats : List (Mat K)} (R : Reach env h mats) (op : DiagOp) (s : Sel)
    (hs : OwnClosure s op.symmetric op.hermitian op.dtype) (x : Arr K) (c : Cnt) :
    ∃ q o, resolve (op.objs h).2 ⟨(op.objs h).1, s⟩ = .ok q ∧ h.length ≤ q ∧ (op.objs h).2[q]? = some o ∧
      (∀ fuel d, (op.mulC h s x c).1 = (run (op.objs h).2 (fuel + 1) q x d).1) ∧
      (op.mulC h s x c).2[q]? = c[q]?.map (· + 1) ∧
      (x.data.length ≠ o.nargin → ∀ i, i ≠ q → (op.mulC h s x c).2[i]? = c[i]?) ∧
      ∀ y c', op.mulC h s x c = (.ok y, c') → ∀ (i : Nat) (d : Nat → Nat), i < h.length →
        (∀ r, some r ∈ op.list s → EachProductAdds h r i (d r)) →
        c'[i]? = c[i]?.map (· + ((op.list s).map fun b => b.elim 0 d).sum) := by
  obtain ⟨D, I, L, O, _⟩ := R.inv
  obtain ⟨q, o, h1, h2, h3, h4, h5⟩ := ctor_closures op.nargin op.nargout (.prim (diagMatvec h op.dtype op.sizes op.blocks))
    (.prim (diagMatvec h op.dtype op.sizes op.blocksT)) (.prim (diagMatvec h op.dtype op.sizes op.blocksH)) op.symmetric op.hermitian
    op.dtype h s hs (op.objs h) rfl
  have hc : o.code = .prim (diagMatvec h op.dtype op.sizes (op.list s)) := by
    rw [h5]
    cases s <;> simp only [DiagOp.list] <;> split <;> rfl
  have hm : op.mulC h s x = productC (op.objs h).2 (diagMatvecC h op.dtype op.sizes (op.list s)) q x := by simp only [DiagOp.mulC, h1]
  rw [hm]
  refine ⟨q, o, h1, h2, h3, fun fuel d => productC_outcome h3 hc (diagMatvecC_outcome h _ _ _) fuel x c d,
    productC_own h3 h2 (diagMatvecC_below O _ _ _ _) c, fun hx i hi => ?_, fun y c' hr i d hi hd => ?_⟩
  · rw [productC_wrong h3 hx c]
    exact modify_other hi
  · exact productC_adds (Nat.ne_of_lt (Nat.lt_of_lt_of_le hi h2)) (diagMatvecC_adds hd x) _ _ _ hr

/-- operators whose products apply no other operator of the heap (dense arrays, diagonals, functions of the user, ...) -/
def Simple (h : Heap K) (l : List (Option Nat)) : Prop := ∀ r, some r ∈ l → ∃ o f, h[r]? = some o ∧ o.code = .prim f

theorem Simple.adds {h : Heap K} (O : Ordered h) {l : List (Option Nat)} (hl : Simple h l) (i r : Nat) (hr : some r ∈ l) :
    EachProductAdds h r i (if r = i then 1 else 0) := by
  obtain ⟨o, f, ho, hf⟩ := hl r hr
  intro fuel x c y c' hrun
  rw [run_productCost O hrun i, productCost_unfold O ho, hf]
  simp [one, codeCost, eq_comm]

theorem sum_count (i : Nat) : ∀ l : List (Option Nat),
    (l.map fun b => b.elim 0 fun r => if r = i then 1 else 0).sum = l.count (some i)
  | [] => rfl
  | none :: l => by simp [sum_count i l]
  | some r :: l => by
    rw [List.map_cons, List.sum_cons, sum_count i l, List.count_cons]
    simp [Nat.add_comm]

/-- **C06, block operators, counted.** If the blocks are simple operators, a product that returns adds to the counter of an operator the
number of places of the grid where it stands. -/
theorem C06_block_count {env : List Nat} {h : Heap K} {mats : List (Mat K)} (R : Reach env h mats) {op : BlkOp} (hop : Built h op)
    (s : Sel) (hs : OwnClosure s op.symmetric op.hermitian op.dtype) (hl : Simple h (op.grid s).flatten) (x y : Arr K) (c c' : Cnt)
    (hr : op.mulC h s x c = (.ok y, c')) (i : Nat) (hi : i < h.length) :
    c'[i]? = c[i]?.map (· + (op.grid s).flatten.count (some i)) := by
  obtain ⟨D, I, L, O, _⟩ := R.inv
  obtain ⟨q, o, -, -, -, -, -, -, h1⟩ := C06_block R hop s hs x c
  rw [h1 y c' hr i (fun r => if r = i then 1 else 0) hi (hl.adds O i), sum_count]

/-- **C06, block diagonal operators, counted.** -/
theorem C06_diag_count {env : List Nat} {h : Heap K} {mats : List (Mat K)} (R : Reach env h mats) (op : DiagOp)
    (s : Sel) (hs : OwnClosure s op.symmetric op.hermitian op.dtype) (hl : Simple h (op.list s)) (x y : Arr K) (c c' : Cnt)
    (hr : op.mulC h s x c = (.ok y, c')) (i : Nat) (hi : i < h.length) :
    c'[i]? = c[i]?.map (· + (op.list s).count (some i)) := by
  obtain ⟨D, I, L, O, _⟩ := R.inv
  obtain ⟨q, o, -, -, -, -, -, -, h1⟩ := C06_diag R op s hs x c
  rw [h1 y c' hr i (fun r => if r = i then 1 else 0) hi (hl.adds O i), sum_count]

end Verif.Blkop

namespace Verif.Blkop.Examples
open Verif.Linop Verif.Linop.Examples

/-- the grid `[[A, S], [Z, Z]]` of `Verif.Blkop.Examples` -/
theorem built1 : ∃ op, mkBlock st.2 grid1 false false = .ok (op, grid1) ∧ Built st.2 op := by
  obtain ⟨op, h1, _⟩ := C16_block prog_reach grid1_ok
  exact ⟨op, h1, .make h1⟩

example (s : Sel) (x : Arr G) (c : Cnt) : ∃ op : BlkOp, Built st.2 op ∧ ∃ q, resolve (op.objs st.2).2 ⟨(op.objs st.2).1, s⟩ = .ok q ∧
    (op.mulC st.2 s x c).2[q]? = c[q]?.map (· + 1) := by
  obtain ⟨op, h1, h2⟩ := built1
  have h3 : op.symmetric = false ∧ op.hermitian = false := by
    have : ∀ p, mkBlock st.2 grid1 false false = .ok p → p.1.symmetric = false ∧ p.1.hermitian = false := by
      intro p hp; cases hp; exact ⟨rfl, rfl⟩
    exact this _ h1
  obtain ⟨q, o, h4, -, -, -, h5, -⟩ := C06_block prog_reach.reach h2 s (.inr (.inl h3)) x c
  exact ⟨op, h2, q, h4, h5⟩

/-- the blocks of the grid are simple -/
theorem simple1 : Simple st.2 grid1.flatten := by
  intro r hr
  simp only [grid1, List.flatten_cons, List.flatten_nil, List.cons_append, List.nil_append, List.append_nil, List.mem_cons,
    Option.some.injEq, List.not_mem_nil, or_false] at hr
  rcases hr with rfl | rfl | rfl | rfl <;> exact ⟨_, _, rfl, rfl⟩

/-- one product with the operator (number 13 of the heap): its blocks `A` (0) and `S` (6) are used once, `Z` (3) twice -/
example : ((blk grid1 false false).map fun b => (b.mulC st.2 .self ⟨.int, [1, 1, 1, 1]⟩ (List.replicate 15 0)).2) =
    some [1, 0, 0, 2, 0, 0, 1, 0, 0, 0, 0, 0, 0, 1, 0] := by decide +kernel
/-- one product with the transpose (number 14): the transposes of the blocks are used -/
example : ((blk grid1 false false).map fun b => (b.mulC st.2 .T ⟨.int, [1, 1, 1, 1, 1]⟩ (List.replicate 15 0)).2) =
    some [0, 1, 0, 0, 2, 0, 0, 1, 0, 0, 0, 0, 0, 0, 1] := by decide +kernel
/-- a product with an array of the wrong size -/
example : ((blk grid1 false false).map fun b => (b.mulC st.2 .self ⟨.int, [1, 1]⟩ (List.replicate 15 0)).2) =
    some [0, 0, 0, 0, 0, 0, 0, 0, 0, 0, 0, 0, 0, 1, 0] := by decide +kernel

example : ∃ op : BlkOp, Built st.2 op ∧ op.grid .self = grid1 ∧ Simple st.2 (op.grid .self).flatten := by
  obtain ⟨op, h1, h2⟩ := built1
  have h3 : ∀ p, mkBlock st.2 grid1 false false = .ok p → p.1.blocks = grid1 := by
    intro p hp; cases hp; rfl
  have h4 : op.grid .self = grid1 := h3 _ h1
  exact ⟨op, h2, h4, h4 ▸ simple1⟩

/-- `diag(A, S, A)`: one product uses `A` twice -/
example : ((match mkDiag st.2 [some 0, some 6, some 0] with
      | .ok b => some b
      | .error _ => none).map fun b : DiagOp => (b.mulC st.2 .self ⟨.int, [1, 1, 1, 1, 1, 1]⟩ (List.replicate 14 0)).2) =
    some [2, 0, 0, 0, 0, 0, 1, 0, 0, 0, 0, 0, 0, 1] := by decide +kernel
example (op : DiagOp) (x : Arr G) (c : Cnt) := C06_diag prog_reach.reach op .self (.inr (.inr rfl)) x c

end Verif.Blkop.Examples
