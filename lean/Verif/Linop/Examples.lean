import Verif.Linop.Props2

/-!
# Concrete cases meeting the hypotheses of the theorems in `Props.lean` and `Props2.lean`

One client program over the Gaussian integers that uses every command; it is reachable and complete, so the
hypotheses `Reach` / `ReachTotal` of the theorems are met by its variables, and some products are computed.
-/

namespace Verif.Linop.Examples
open Verif.Linop

abbrev G := GaussianInt

/-- `[[1, 2], [3, 4]]` as an integer array -/
def a22 : NdArray2 G := ⟨.int, 2, 2, fun i j => ((2 * i + j + 1 : Nat) : G)⟩
/-- `[1j, 2]` -/
def d2 : Arr G := ⟨.complex, [⟨0, 1⟩, 2]⟩
/-- the user's function for `[[0, 1j], [0, 0]]` and its transpose -/
def shiftF : Fn G := fun x => .ok ⟨.complex, [⟨0, 1⟩ * x.data.getD 1 0, 0]⟩
def shiftT : Fn G := fun x => .ok ⟨.complex, [0, ⟨0, 1⟩ * x.data.getD 0 0]⟩
def shiftH : Fn G := fun x => .ok ⟨.complex, [0, ⟨0, -1⟩ * x.data.getD 0 0]⟩
def shiftM : Mat G := ⟨2, 2, .complex, fun i j => if i = 0 ∧ j = 1 then ⟨0, 1⟩ else 0⟩

def demo : List (Cmd G) :=
  [.nd a22 false none, .diag d2, .mul 0 1, .H 2, .add 2 3, .pow 4 3, .conj 5, .reduce 6 [0, -1] [1],
   .smul 4 ⟨1, 2⟩ .complex, .sub 8 0, .neg 9, .T 10, .symreduce 4 [-1], .ident 2 .int, .zero 2 3 .real,
   .new shiftM false false shiftF (some shiftT) (some shiftH), .mul 15 5]

def demoState : List Nat × Heap G :=
  match execAll demo ([], []) with
  | .ok s => s
  | .error _ => ([], [])

def demoMats : List (Mat G) :=
  match specAll demo [] with
  | .ok s => s
  | .error _ => []

theorem demo_exec : execAll demo ([], []) = .ok (demoState.1, demoState.2) := rfl
theorem demo_spec : specAll demo [] = .ok demoMats := rfl

theorem a22_typed : (Mat.ofNd a22).Typed := by
  intro i _ j _
  exact ⟨((2 * i + j + 1 : Nat) : ℤ), by simp [Mat.ofNd, a22]⟩

theorem shift_app (x : List G) : shiftM.app x = [⟨0, 1⟩ * x.getD 1 0, 0] := by
  simp [Mat.app, shiftM, List.range_succ, Finset.sum_range_succ]
theorem shift_appT (x : List G) : shiftM.T.app x = [0, ⟨0, 1⟩ * x.getD 0 0] := by
  simp [Mat.app, Mat.T, shiftM, List.range_succ, Finset.sum_range_succ]
theorem shift_appH (x : List G) : shiftM.H.app x = [0, ⟨0, -1⟩ * x.getD 0 0] := by
  have : star (⟨0, 1⟩ : G) = ⟨0, -1⟩ := rfl
  simp [Mat.app, Mat.H, shiftM, List.range_succ, Finset.sum_range_succ, this]

theorem shift_wf (mats : List (Mat G)) : (Cmd.new shiftM false false shiftF (some shiftT) (some shiftH)).WF mats := by
  refine ⟨fun _ _ _ _ => trivial, by simp, by simp, ?_, ?_, ?_⟩
  · intro x _ _ y hy; cases hy; exact (shift_app _).symm
  · intro g hg; cases hg; intro x _ _ y hy; cases hy; exact (shift_appT _).symm
  · intro g hg; cases hg; intro x _ _ y hy; cases hy; exact (shift_appH _).symm

theorem demo_wf : WFAll [] demo := by
  refine ⟨⟨a22_typed, by simp, by simp⟩, fun A hA => ⟨fun _ _ => trivial, fun B hB => ?_⟩⟩
  cases hA; cases hB
  refine ⟨trivial, fun A hA => ?_⟩; cases hA
  refine ⟨trivial, fun A hA => ?_⟩; cases hA
  refine ⟨trivial, fun A hA => ?_⟩; cases hA
  refine ⟨trivial, fun A hA => ?_⟩; cases hA
  refine ⟨trivial, fun A hA => ?_⟩; cases hA
  refine ⟨fun A hA => ?_, fun A hA => ?_⟩
  · cases hA; exact ⟨[0, 1], [1], rfl, rfl, by decide, by decide⟩
  cases hA
  refine ⟨trivial, fun A hA => ?_⟩; cases hA
  refine ⟨trivial, fun A hA => ?_⟩; cases hA
  refine ⟨trivial, fun A hA => ?_⟩; cases hA
  refine ⟨trivial, fun A hA => ?_⟩; cases hA
  refine ⟨fun A hA => ?_, fun A hA => ?_⟩
  · cases hA; exact ⟨[1], [1], rfl, rfl, by decide, by decide⟩
  cases hA
  refine ⟨trivial, fun A hA => ?_⟩; cases hA
  refine ⟨trivial, fun A hA => ?_⟩; cases hA
  refine ⟨shift_wf _, fun A hA => ?_⟩; cases hA
  exact ⟨trivial, fun _ _ => trivial⟩

theorem demo_complete : ∀ c ∈ demo, c.Complete := by
  intro c hc
  simp only [demo, List.mem_cons, List.not_mem_nil, or_false] at hc
  rcases hc with rfl | rfl | rfl | rfl | rfl | rfl | rfl | rfl | rfl | rfl | rfl | rfl | rfl | rfl | rfl | rfl | rfl <;>
    first
    | trivial
    | (refine ⟨fun x _ _ => ⟨_, rfl⟩, ?_, ?_, by simp [shiftM]⟩ <;> intro g hg <;> cases hg <;>
        exact fun x _ _ => ⟨_, rfl⟩)

/-- `Reach` / `ReachTotal` hold for the program: the hypotheses of C01, C02, C04 - C12 can be met. -/
theorem demo_reachTotal : ReachTotal demoState.1 demoState.2 demoMats :=
  ⟨demo, demo_wf, demo_complete, demo_exec, demo_spec⟩
theorem demo_reach : Reach demoState.1 demoState.2 demoMats := demo_reachTotal.reach

/-- C01 on a smaller program: `a22 * diag(d2)` times `[1, 1j]`, computed by the code ... -/
def demo2 : List (Cmd G) := [.nd a22 false none, .diag d2, .mul 0 1]

example : (match execAll demo2 ([], []) with
    | .ok (env, h) => env[2]?.map fun r => (run h 9 r ⟨.complex, [1, ⟨0, 1⟩]⟩ []).1
    | .error _ => none) = some (.ok ⟨.complex, [⟨0, 5⟩, ⟨0, 11⟩]⟩) := by decide +kernel
/-- ... and by the matrices. -/
example : (match specAll demo2 [] with
    | .ok mats => mats[2]?.map fun A => A.app [1, ⟨0, 1⟩]
    | .error _ => none) = some [⟨0, 5⟩, ⟨0, 11⟩] := by decide +kernel

/-- **C12 fails for repeated indices**: `ReducedLinearOperator(I, [0], [0, 0]) * [1, 1]` returns `[1]` (the last
assignment to `z[0]` wins), whereas the submatrix `I[[0], [0, 0]] = [[1, 1]]` gives `[2]`. -/
theorem C12_repeated_index :
    (match execAll [Cmd.ident 2 .int, Cmd.reduce 0 [0] [0, 0]] ([], ([] : Heap G)) with
      | .ok (env, h) => env[1]?.map fun r => (run h 9 r ⟨.int, [1, 1]⟩ []).1
      | .error _ => none) = some (.ok ⟨.int, [1]⟩) ∧
    ((Mat.ident 2 .int : Mat G).submat [0] [0, 0]).app [1, 1] = [2] := by
  constructor <;> decide +kernel

/-- An operator without transpose information is not complete, and composites built from it advertise a transpose that
raises `TypeError` when it is used: the `Complete` hypothesis of the total theorems is needed. -/
theorem C02_composite_without_transpose :
    (match execAll [Cmd.new ⟨1, 1, .real, fun _ _ => 2⟩ false false (fun x => .ok ⟨x.kind, x.data.map (2 * ·)⟩) none none,
        Cmd.mul 0 0, Cmd.T 1] ([], ([] : Heap G)) with
      | .ok (env, h) => env[2]?.map fun r => (run h 9 r ⟨.int, [1]⟩ []).1
      | .error _ => none) = some (.error .typeError) := by
  decide +kernel

/-- C03: a complex operator with only `matvec_adj` - the double transpose really is `None`, though `.T` is there. -/
example : (match execAll [Cmd.new shiftM false false shiftF none (some shiftH), Cmd.T 0, Cmd.T 1] ([], ([] : Heap G)) with
      | .ok _ => none
      | .error e => some e) = some .typeError ∧
    (match execAll [Cmd.new shiftM false false shiftF none (some shiftH), Cmd.T 0] ([], ([] : Heap G)) with
      | .ok (env, h) => env[1]?.map fun r => (run h 9 r ⟨.complex, [1, 1]⟩ []).1
      | .error _ => none) = some (.ok ⟨.complex, [0, ⟨0, 1⟩]⟩) := by
  constructor <;> decide +kernel

/-- C05: wrong and right sizes; C06: the counters after `(A * A) * x` where `A` has index 0 and the product index 2. -/
example : (match execAll [Cmd.nd a22 false none, Cmd.mul 0 0] ([], []) with
    | .ok (env, h) => env[1]?.map fun r =>
        ((run h 9 r ⟨.int, [1, 1]⟩ (List.replicate h.length 0)).2, (run h 9 r ⟨.int, [1]⟩ []).1)
    | .error _ => none) = some ([2, 0, 1, 0, 0], .error .valueError) := by decide +kernel

/-- C10: the dense conversion of `A * diag(d2)`, column by column. -/
example : (match execAll demo2 ([], []) with
    | .ok (env, h) => env[2]?.map fun r => (toArray h 9 r []).1
    | .error _ => none) = some (.ok [[⟨0, 1⟩, ⟨0, 3⟩], [4, 8]]) := by decide +kernel

/-- C09: the chain of products in the hypotheses exists for every reachable complete square operator (here `A`, three
steps, entries growing). -/
example : (match execAll [Cmd.nd a22 false none, Cmd.pow 0 3] ([], []) with
    | .ok (env, h) => env[1]?.map fun r => (run h 9 r ⟨.int, [1, 1]⟩ []).1
    | .error _ => none) = some (.ok ⟨.int, [91, 199]⟩) := by decide +kernel

end Verif.Linop.Examples
