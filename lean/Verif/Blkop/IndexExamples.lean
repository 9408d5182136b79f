import Verif.Blkop.AssignBad
import Verif.Blkop.Examples

/-!
# Concrete cases for C58 and C59

The operators are those of `Examples.lean`: `A` (object 0), the identity (2), `Z` of shape `(3, 2)` (3), `Z.T` (4), `S` (6).
-/

namespace Verif.Blkop.Examples
open Verif.Linop Verif.Linop.Examples

/-! ## C58 -/

/-- `range(5)[1:4]`, `range(5)[::-2]`, `range(5)[-2:]`, `range(5)[10:]` -/
example : Slice.indices ⟨some 1, some 4, none⟩ 5 = .ok [1, 2, 3] := by rfl
example : Slice.indices ⟨none, none, some (-2)⟩ 5 = .ok [4, 2, 0] := by rfl
example : Slice.indices ⟨some (-2), none, none⟩ 5 = .ok [3, 4] := by rfl
example : Slice.indices ⟨some 10, none, none⟩ 5 = .ok [] := by rfl
example := C58_slice_up ⟨some 1, none, some 2⟩ 5 (by decide)
example := C58_slice_down ⟨none, none, some (-2)⟩ 5 (by decide)
example := C58_slice_between 5 1 4 (by decide) (by decide)

example := C58_block prog_reach grid1_ok assigned1
example := C58_flagged prog_reach (upper1_ok true) (Or.inl rfl) (fun _ _ => by decide) assigned_upper
example := C58_diag prog_reach list1 (by simp)

/-- result of an index expression: the block, or the blocks of the block operator -/
def show' : Except Err Item → Option (Nat ⊕ Grid)
  | .ok (.block r) => some (.inl r)
  | .ok (.op b) => some (.inr b.blocks)
  | .error _ => none

/-- `op[-1, 0]`, `op[::-1, 1:]`, `op[0]` and `op[2, 0]` for `op = [[A, S], [Z, Z]]` -/
example : ((blk grid1 false false).map fun b => show' (b.getItem st.2 (.int (-1)) (some (.int 0)))) =
    some (some (.inl 3)) := by decide +kernel
example : ((blk grid1 false false).map fun b => show' (b.getItem st.2 (.slice ⟨none, none, some (-1)⟩)
    (some (.slice ⟨some 1, none, none⟩)))) = some (some (.inr [[some 3], [some 6]])) := by decide +kernel
example : ((blk grid1 false false).map fun b => show' (b.getItem st.2 (.int 0) none)) =
    some (some (.inr [[some 0, some 6]])) := by decide +kernel
example : ((blk grid1 false false).map fun b => show' (b.getItem st.2 (.int 2) (some (.int 0)))) = some none := by
  decide +kernel

/-! ## C59 -/

/-- `op[0, :] = A`, then `op[-1, ::-1] = Z` -/
theorem fits1 : Fits st.1 mats [2, 3] [2, 2] .complex
    [(.int 0, some (.slice ⟨none, none, none⟩), 0), (.int (-1), some (.slice ⟨none, none, some (-1)⟩), 3)] M1
    (updIJ (updIJ M1 [0] [0, 1] mA) [1] [1, 0] mZ) :=
  .cons (v := 0) rfl rfl rfl rfl (by decide) (by decide) rfl
    (.cons (v := 2) rfl rfl rfl rfl (by decide) (by decide) rfl (.nil _))

example := C59_block_fits_partial prog_reach grid1_ok fits1

/-- `op[0:2] = [S, A]`, then `op[1] = I` -/
theorem diagFits1 : DiagFits st.1 mats false false .complex
    [(.slice ⟨some 0, some 2, none⟩, .list [some 6, some 0]), (.int (-1), .op 2)] [mA, mS] [mS, mI] :=
  .slice (I := [0, 1]) (Vs := [mS, mA]) rfl (.cons ⟨3, 6, rfl, rfl, rfl⟩ (.cons ⟨0, 0, rfl, rfl, rfl⟩ .nil))
    (.cons ⟨mA, rfl, rfl, rfl⟩ (.cons ⟨mS, rfl, rfl, rfl⟩ .nil)) (by decide) (by simp) (by simp)
    (.int (v := 1) rfl rfl rfl rfl rfl rfl rfl (by simp) (by simp) (.nil _))

example := C59_diag_fits_partial prog_reach list1 (by simp)

example : ∃ e, ∀ op : BlkOp, op.blocks = grid1 → op.assign st.2 (.int 2) none (some 0) = (op, some e) :=
  ⟨.indexError, fun op h => by simp [BlkOp.assign, h, grid1, Idx.select]; rfl⟩
example (op : BlkOp) (h : op.blocks = grid1) :=
  C59_block_index_partial st.2 op (.int 2) none (some 0) (Or.inl ⟨.indexError, by rw [h]; rfl⟩)
example (op : DiagOp) := C59_diag_rejected_partial st.2 op (.int 0) (.list [some 0, none])
  (Or.inr (Or.inl ⟨_, rfl, by simp⟩))

/-- `op[0] = Z.T` (shape `(2, 3)` instead of `(2, 2)`), `op[0] = Z` (shape `(3, 2)`), `op[0:2] = [A]`, `op[0] = None` -/
example := C59_diag_misfit prog_reach list1 (by simp)
example : mZ.rows ≠ mA.rows ∧ mZ.cols = mA.cols := by decide
example := C59_diag_resized prog_reach list1 (by simp)
example : (([mA, mS].take 0 ++ [mA] ++ [mA, mS].drop 2).map Mat.cols).sum ≠ ([mA, mS].map Mat.cols).sum := by decide
example := C59_diag_none prog_reach list1 (by simp)

/-- `op[0, 1] = Z` (height 3 instead of 2), `op[1, 0] = None` -/
example := C59_block_misfit prog_reach grid1_ok
example : mZ.rows ≠ ([2, 3] : List Nat).getD 0 0 ∧ mZ.rows ≠ 1 := by decide
example := C59_block_none prog_reach grid1_ok

/-- the same operators and the row `ones(1, 2)` -/
def prog2 : List (Cmd G) := prog ++ [.nd ⟨.int, 1, 2, fun _ _ => 1⟩ false none]

def st2 : List Nat × Heap G :=
  match execAll prog2 ([], []) with
  | .ok s => s
  | .error _ => ([], [])

/-- the row -/
def rowObj : Nat := st2.1.getD 5 0

/-- `BlockLinearOperator(g)` and `BlockDiagonalLinearOperator(l)` in the second program -/
def blk2 (g : Grid) : Option BlkOp :=
  match mkBlock st2.2 g false false with
  | .ok p => some p.1
  | .error _ => none
def dia2 (l : List (Option Nat)) : Option DiagOp :=
  match mkDiag st2.2 l with
  | .ok p => some p
  | .error _ => none

/-- **C59 (violated).**  `op = BlockLinearOperator([[A, S]])` has shape `(2, 4)`; `op[0, 1] = ones(1, 2)` is accepted, and the product
of the row with its part of the vector is added to both entries: the result is that of no block matrix with a block of one row. -/
theorem C59_block_broadcast :
    (((blk2 [[some 0, some 6]]).map fun b => b.assign st2.2 (.int 0) (some (.int 1)) (some rowObj)).map fun b =>
        (b.2, times (b.1.objs st2.2).2 (some (b.1.objs st2.2).1) [1, 1, 1, 1])) =
    some (none, some (.ok ⟨.complex, [5, 9]⟩)) := by decide +kernel

/-- **C59 (violated).**  `op = BlockDiagonalLinearOperator([I, I])` is symmetric, of shape `(4, 4)`; `op[0] = ones(1, 2)` is accepted,
and the product of the row with its part of the vector is copied to two entries. -/
theorem C59_diag_broadcast :
    (((dia2 [some 2, some 2]).map fun b => b.assign st2.2 (.int 0) (.op rowObj)).map fun b =>
        (b.2, times (b.1.objs st2.2).2 (some (b.1.objs st2.2).1) [1, 1, 1, 1])) =
    some (none, some (.ok ⟨.int, [2, 2, 1, 1]⟩)) := by decide +kernel

/-- **C59 (violated).**  `op = BlockDiagonalLinearOperator([I, I])`; `op[0] = None` is accepted. -/
theorem C59_diag_none_silent :
    ((dia [some 2, some 2]).map fun b => (b.assign st.2 (.int 0) .other).2) = some none := by decide +kernel

end Verif.Blkop.Examples
