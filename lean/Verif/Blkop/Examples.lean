import Verif.Blkop.DiagProps
import Verif.Linop.Examples
import Mathlib.Tactic.IntervalCases

/-!
# Concrete cases for C16-C20

A client program over the Gaussian integers defines five operators; the hypotheses of the theorems in `Props.lean` and
`DiagProps.lean` are met by grids of them, and the violations are shown on products that are computed.
-/

namespace Verif.Blkop.Examples
open Verif.Linop Verif.Linop.Examples

/-- `A = [[1,2],[3,4]]`, the identity, the zero operator of shape `(3, 2)`, `S = [[0, 1j], [0, 0]]` and `diag(1j, 2)` -/
def prog : List (Cmd G) :=
  [.nd a22 false none, .ident 2 .int, .zero 2 3 .real, .new shiftM false false shiftF (some shiftT) (some shiftH), .diag d2]

def st : List Nat × Heap G :=
  match execAll prog ([], []) with
  | .ok s => s
  | .error _ => ([], [])

def mats : List (Mat G) :=
  match specAll prog [] with
  | .ok s => s
  | .error _ => []

theorem prog_reach : ReachTotal st.1 st.2 mats := by
  refine ⟨prog, ?_, ?_, rfl, rfl⟩
  · refine ⟨⟨a22_typed, by simp, by simp⟩, fun A hA => ?_⟩
    cases hA
    refine ⟨trivial, fun A hA => ?_⟩; cases hA
    refine ⟨trivial, fun A hA => ?_⟩; cases hA
    refine ⟨shift_wf _, fun A hA => ?_⟩; cases hA
    exact ⟨fun _ _ => trivial, fun _ _ => trivial⟩
  · intro c hc
    simp only [prog, List.mem_cons, List.not_mem_nil, or_false] at hc
    rcases hc with rfl | rfl | rfl | rfl | rfl <;>
      first
      | trivial
      | (refine ⟨fun x _ _ => ⟨_, rfl⟩, ?_, ?_, by simp [shiftM]⟩ <;> intro g hg <;> cases hg <;>
          exact fun x _ _ => ⟨_, rfl⟩)

def mA : Mat G := mats.getD 0 (Mat.ident 0 .int)
def mI : Mat G := mats.getD 1 (Mat.ident 0 .int)
def mZ : Mat G := mats.getD 2 (Mat.ident 0 .int)
def mS : Mat G := mats.getD 3 (Mat.ident 0 .int)
def mD : Mat G := mats.getD 4 (Mat.ident 0 .int)

/-- the product `op * x` of an operator living in the heap `h` -/
def times (h : Heap G) (r : Option Nat) (x : List G) : Option (Except Err (Arr G)) :=
  r.map fun r => (run h 30 r ⟨.int, x⟩ []).1

/-! ## C16: `[[A, S], [Z, Z]]` -/

def grid1 : Grid := [[some 0, some 6], [some 3, some 3]]
def M1 : Nat → Nat → Mat G := fun i j => if i = 0 then if j = 0 then mA else mS else mZ

theorem grid1_ok : BlockGrid st.1 mats grid1 [2, 3] [2, 2] M1 where
  nrows := rfl
  ncols := by decide
  pos := ⟨by simp, by simp⟩
  entry := by
    intro i hi j hj
    have hi : i < 2 := hi
    have hj : j < 2 := hj
    interval_cases i <;> interval_cases j
    · exact ⟨0, 0, rfl, rfl, rfl⟩
    · exact ⟨3, 6, rfl, rfl, rfl⟩
    · exact ⟨2, 3, rfl, rfl, rfl⟩
    · exact ⟨2, 3, rfl, rfl, rfl⟩
  rows := by
    intro i hi j hj
    have hi : i < 2 := hi
    have hj : j < 2 := hj
    interval_cases i <;> interval_cases j <;> rfl
  cols := by
    intro i hi j hj
    have hi : i < 2 := hi
    have hj : j < 2 := hj
    interval_cases i <;> interval_cases j <;> rfl

example := C16_block prog_reach grid1_ok

/-- the operator built from a nested list, or `none` if the constructor raises -/
def blk (g : Grid) (sym herm : Bool) : Option BlkOp :=
  match mkBlock st.2 g sym herm with
  | .ok p => some p.1
  | .error _ => none

/-- `[[A, S], [Z, Z]] * [1, 1, 1, 1]` computed by the code, and `[[A, S], [Z, Z]].H * [1, 0, 0, 0, 0]` -/
example : ((blk grid1 false false).bind fun b => times (b.objs st.2).2 (some (b.objs st.2).1) [1, 1, 1, 1]) =
    some (.ok ⟨.complex, [⟨3, 1⟩, 7, 0, 0, 0]⟩) := by decide +kernel
example : ((blk grid1 false false).bind fun b => times (b.objs st.2).2 (getH (b.objs st.2).2 (b.objs st.2).1) [1, 0, 0, 0, 0]) =
    some (.ok ⟨.complex, [1, 2, 0, ⟨0, -1⟩]⟩) := by decide +kernel

/-! ## C17: `[[I, A], [I]]`, symmetric -/

def upper1 : Grid := [[some 2, some 0], [some 2]]
def U1 : Nat → Nat → Mat G := fun i j => if i = j then mI else mA

theorem upper1_ok (herm : Bool) : UpperGrid st.1 st.2 mats true herm upper1 [2, 2] U1 where
  nrows := rfl
  ncols := by
    intro i row h
    match i, h with
    | 0, h => cases h; rfl
    | 1, h => cases h; rfl
    | i + 2, h => simp [upper1] at h
  pos := by simp
  entry := by
    intro i j hij hj
    have hj : j < 2 := hj
    interval_cases j <;> interval_cases i
    · exact ⟨1, 2, rfl, rfl, rfl⟩
    · exact ⟨0, 0, rfl, rfl, rfl⟩
    · exact ⟨1, 2, rfl, rfl, rfl⟩
  diag := by
    intro i hi
    have hi : i < 2 := hi
    interval_cases i
    · exact ⟨2, _, rfl, rfl, fun _ => rfl, fun _ => rfl⟩
    · exact ⟨2, _, rfl, rfl, fun _ => rfl, fun _ => rfl⟩
  rows := by
    intro i j hij hj
    have hj : j < 2 := hj
    interval_cases j <;> interval_cases i <;> rfl
  cols := by
    intro i j hij hj
    have hj : j < 2 := hj
    interval_cases j <;> interval_cases i <;> rfl

example := C17_upper_partial prog_reach (upper1_ok true) (Or.inl rfl) (fun _ _ => by decide)
example := C17_caller_list prog_reach (upper1_ok true) (Or.inl rfl) (fun _ _ => by decide) (le_refl 2)
example := C17_full_grid_fails st.2 [[some 2, some 0], [some 1, some 2]] true false (Or.inl rfl) 2 (le_refl 2) rfl (by decide)

/-- **C17, both flags (violated).**  `BlockLinearOperator([[I, S], [I]], symmetric=True, hermitian=True)` is accepted with the
complex block `S`, and says that it is hermitian; but it is not equal to its adjoint. -/
theorem C17_both_flags : ∃ b : BlkOp, blk [[some 2, some 6], [some 2]] true true = some b ∧ b.hermitian = true ∧
    times (b.objs st.2).2 (some (b.objs st.2).1) [0, 0, 0, 1] ≠
      times (b.objs st.2).2 (getH (b.objs st.2).2 (b.objs st.2).1) [0, 0, 0, 1] := by
  cases hb : blk [[some 2, some 6], [some 2]] true true with
  | none => exact absurd hb (by decide +kernel)
  | some b =>
    refine ⟨b, rfl, ?_, ?_⟩
    · have : (blk [[some 2, some 6], [some 2]] true true).map BlkOp.hermitian = some true := by decide +kernel
      rw [hb] at this
      simpa using this
    · have : ((blk [[some 2, some 6], [some 2]] true true).map fun b =>
        decide (times (b.objs st.2).2 (some (b.objs st.2).1) [0, 0, 0, 1] ≠
          times (b.objs st.2).2 (getH (b.objs st.2).2 (b.objs st.2).1) [0, 0, 0, 1])) = some true := by decide +kernel
      rw [hb] at this
      simpa using this

/-! ## C18 -/

/-- `Z` has height 3: the grid `[[A, Z]]` is rejected. -/
example : mkBlock st.2 [[some 0, some 3]] false false = .error .shapeError := by rfl

/-- all entries are operators: hypotheses of `C18_shape_error_partial`, `C18_widths_unchecked` -/
theorem valid_inconsistent : ValidGrid st.2 [[some 0, some 0], [some 0, some 4]] where
  pos := ⟨by simp, by simp⟩
  entry := by
    intro row hr b hb
    simp only [List.mem_cons, List.not_mem_nil, or_false] at hr
    rcases hr with rfl | rfl <;> simp only [List.mem_cons, List.not_mem_nil, or_false] at hb <;> rcases hb with rfl | rfl
    · exact ⟨0, _, rfl, rfl⟩
    · exact ⟨0, _, rfl, rfl⟩
    · exact ⟨0, _, rfl, rfl⟩
    · exact ⟨4, _, rfl, rfl⟩
example := C18_shape_error_partial valid_inconsistent

/-- **C18 (violated).**  The grid `[[A, A], [A, Z.T]]` has columns of widths 2, 2 and 2, 3: it is accepted, says that its shape is
`(4, 4)`, and the product with `(1, 1, 1, 1)` raises. -/
theorem C18_inconsistent_accepted : ∃ b : BlkOp, blk [[some 0, some 0], [some 0, some 4]] false false = some b ∧
    (b.nargout, b.nargin) = (4, 4) ∧
    times (b.objs st.2).2 (some (b.objs st.2).1) [1, 1, 1, 1] = some (.error .valueError) := by
  cases hb : blk [[some 0, some 0], [some 0, some 4]] false false with
  | none => exact absurd hb (by decide +kernel)
  | some b =>
    refine ⟨b, rfl, ?_, ?_⟩
    · have : (blk [[some 0, some 0], [some 0, some 4]] false false).map (fun b => (b.nargout, b.nargin)) = some (4, 4) := by
        decide +kernel
      rw [hb] at this
      simpa using this
    · have : ((blk [[some 0, some 0], [some 0, some 4]] false false).map fun b =>
        times (b.objs st.2).2 (some (b.objs st.2).1) [1, 1, 1, 1]) = some (some (.error .valueError)) := by decide +kernel
      rw [hb] at this
      simpa using this

/-! ## C19 -/

theorem assigned1 : Assigned st.1 mats [2, 3] [2, 2] .complex [(0, 1, 0), (-1, 0, 3)] M1
    (updM (updM M1 0 1 mA) 1 0 mZ) :=
  .cons (v := 0) rfl rfl rfl rfl rfl rfl rfl (.cons (v := 2) rfl rfl rfl rfl rfl rfl rfl (.nil _))

example := C19_assign_partial prog_reach grid1_ok (as := [(0, 1, 0), (-1, 0, 3)]) assigned1

theorem ident_sym (i j : Nat) : mI.e i j = mI.e j i := by
  show (if i = j then (1 : G) else 0) = if j = i then 1 else 0
  simp only [eq_comm]
theorem ident_herm (i j : Nat) : mI.e i j = star (mI.e j i) := by
  show (if i = j then (1 : G) else 0) = star (if j = i then 1 else 0)
  simp only [eq_comm (a := i)]
  split <;> simp

theorem assigned_upper : UpperAssigned st.1 mats true true [2, 2] .int [(0, 1, 2), (-1, 1, 2)] U1
    (updM (updM U1 0 1 mI) 1 1 mI) :=
  .cons (v := 1) rfl rfl (by simp) rfl rfl rfl rfl rfl (by simp)
    (.cons (v := 1) rfl rfl (by simp) rfl rfl rfl rfl rfl
      (fun _ => ⟨fun _ => ⟨rfl, rfl, rfl, fun i _ j _ => ident_sym i j⟩,
        fun _ => ⟨rfl, rfl, rfl, fun i _ j _ => ident_herm i j⟩⟩) (.nil _))

example := C19_flagged_partial prog_reach (upper1_ok true) (Or.inl rfl) (fun _ _ => by decide)
  (as := [(0, 1, 2), (-1, 1, 2)]) assigned_upper
example := C19_lower_ignored prog_reach (upper1_ok true) (Or.inl rfl) (fun _ _ => by decide) (i := 1) (j := 0) (p := 1)
  (q := 0) (v := 0) (r := 0) (B := mA) rfl rfl (by decide) rfl rfl rfl rfl

/-- **C19 (violated).**  For `op = BlockLinearOperator([[I, A], [I]], symmetric=True)` and `op[0, 1] = I`: products with `op` use the
new block, products with `op.H` the old one. -/
theorem C19_stale_adjoint_example :
    (((blk upper1 true false).bind fun b =>
      match b.set st.2 0 1 2 with
      | .ok b' => some b'
      | .error _ => none).map fun b =>
        (times (b.objs st.2).2 (some (b.objs st.2).1) [0, 0, 1, 0],
         times (b.objs st.2).2 (getH (b.objs st.2).2 (b.objs st.2).1) [0, 0, 1, 0])) =
    some (some (.ok ⟨.int, [1, 0, 1, 0]⟩), some (.ok ⟨.int, [1, 3, 1, 0]⟩)) := by decide +kernel

/-! ## C20 -/

theorem list1 : BlockList st.1 mats [some 0, some 6] [mA, mS] :=
  .cons ⟨0, 0, rfl, rfl, rfl⟩ (.cons ⟨3, 6, rfl, rfl, rfl⟩ .nil)
theorem list2 : BlockList st.1 mats [some 3, some 0] [mZ, mA] :=
  .cons ⟨2, 3, rfl, rfl, rfl⟩ (.cons ⟨0, 0, rfl, rfl, rfl⟩ .nil)

example := C20_square_partial prog_reach list1 (by simp) (by intro A hA; simp at hA; rcases hA with rfl | rfl <;> rfl)
example := C20_forward_partial prog_reach list2 (by simp)
example := C20_rectangular_transpose prog_reach list2 ⟨mZ, by simp, by decide⟩
example := C19_diag_partial prog_reach list1 (by simp) (by intro A hA; simp at hA; rcases hA with rfl | rfl <;> rfl)

theorem assigned2 : DiagAssigned st.1 mats false false .complex [(-1, 0), (0, 2)] [mA, mS] [mI, mA] :=
  .cons (v := 0) rfl rfl rfl rfl rfl rfl rfl (by simp) (by simp)
    (.cons (v := 1) rfl rfl rfl rfl rfl rfl rfl (by simp) (by simp) (.nil _))

def dia (l : List (Option Nat)) : Option DiagOp :=
  match mkDiag st.2 l with
  | .ok p => some p
  | .error _ => none

/-- `diag(A, S) * [1, 1, 1, 1]` and `diag(A, S).H * [1, 1, 1, 1]` -/
example : ((dia [some 0, some 6]).map fun b =>
    (times (b.objs st.2).2 (some (b.objs st.2).1) [1, 1, 1, 1],
     times (b.objs st.2).2 (getH (b.objs st.2).2 (b.objs st.2).1) [1, 1, 1, 1])) =
    some (some (.ok ⟨.complex, [3, 7, ⟨0, 1⟩, 0]⟩), some (.ok ⟨.complex, [4, 6, 0, ⟨0, -1⟩]⟩)) := by decide +kernel

/-- `diag(Z, A) * [1, 1, 1, 1]` and `diag(Z, A).T * [1, 1, 1, 1, 1]` -/
example : ((dia [some 3, some 0]).map fun b =>
    (times (b.objs st.2).2 (some (b.objs st.2).1) [1, 1, 1, 1],
     times (b.objs st.2).2 (getT (b.objs st.2).2 (b.objs st.2).1) [1, 1, 1, 1, 1])) =
    some (some (.ok ⟨.real, [0, 0, 0, 3, 7]⟩), some (.error .shapeError)) := by decide +kernel

/-- **C19 (violated).**  `op = BlockDiagonalLinearOperator([I, I])` is symmetric; after `op[0] = A`, `op.T` acts as `op`, not as
its transpose. -/
theorem C19_diag_symmetric_example :
    (((dia [some 2, some 2]).bind fun b =>
      match b.set st.2 0 0 with
      | .ok b' => some b'
      | .error _ => none).map fun b =>
        (b.symmetric, times (b.objs st.2).2 (some (b.objs st.2).1) [1, 0, 0, 0],
         times (b.objs st.2).2 (getT (b.objs st.2).2 (b.objs st.2).1) [1, 0, 0, 0])) =
    some (true, some (.ok ⟨.int, [1, 3, 0, 0]⟩), some (.ok ⟨.int, [1, 3, 0, 0]⟩)) := by decide +kernel

end Verif.Blkop.Examples
