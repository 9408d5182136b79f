import Verif.Linop.Core

/-!
# Model of `pykrylov/linop/blkop.py`

Blocks are operator objects of the heap of `Verif.Linop.Core`; `None` (a missing transpose or adjoint) can occur in
the lists too, so an entry is an `Option Nat`.

The matvec closures of a block operator read the attributes `_blocks`, `_blocksT`, `_blocksH` when they are called,
and `__setitem__` assigns these attributes.  The constructor of `LinearOperator` stores closures without calling
them; so the operator objects after an assignment are those the constructor builds out of closures that read the
current lists.  This is how `BlkOp.objs` and `DiagOp.objs` are defined.

Simplifications: the counters of blocks used inside a block operator are not tracked here (see `Verif.Blkop.Counts`); the rows of the caller's nested
list are distinct list objects and the caller does not modify them later; indices in `__setitem__` are integers, not
slices; logging is dropped.
-/

namespace Verif.Blkop
open Verif.Linop

abbrev Grid := List (List (Option Nat))

section
variable {K : Type} [CommRing K] [StarRing K] [DTypes K]

/-- `blk.shape` (line 50; base class `linop.py`, property `shape`); `None` has no attributes -/
def blkShape (h : Heap K) : Option Nat → Except Err (Nat × Nat)
  | none => .error .attributeError
  | some r => match h[r]? with
    | some o => .ok (o.nargout, o.nargin)
    | none => .error .attributeError

/-- `l[0]`, lines 26, 31, 33, 52, 62, 63 -/
def hd {α : Type} : List α → Except Err α
  | [] => .error .indexError
  | a :: _ => .ok a

/-- `if min(l) != max(l): raise ShapeError`, lines 53-54 and 59-60 -/
def sameAll : List Nat → Except Err Unit
  | [] => .error .valueError
  | a :: l => if l.foldl min a ≠ l.foldl max a then .error .shapeError else .ok ()

/-- shapes of all blocks, as in lines 50, 56 and 70-71 -/
def shapes (h : Heap K) (G : Grid) : Except Err (List (List (Nat × Nat))) :=
  G.mapM fun row => row.mapM (blkShape h)

/-- Lines 50-63: the consistency checks, and `nargin`, `nargout`. -/
def checkShapes (h : Heap K) (G : Grid) : Except Err (Nat × Nat) := do
  let sh ← shapes h G
  let firsts ← sh.mapM hd
  sameAll (firsts.map Prod.snd)
  let _ ← sh.mapM fun row => sameAll (row.map Prod.fst)
  let r0 ← hd sh
  .ok ((r0.map Prod.snd).sum, (firsts.map Prod.fst).sum)

/-- one call of the lambda of lines 66-67 -/
def colAt (attr : Nat → Option Nat) (G : Grid) (k : Nat) : Except Err (List (Option Nat)) :=
  G.mapM fun row => match row[k]? with
    | some (some r) => .ok (attr r)
    | _ => .error .attributeError

/-- Lines 66-67, `map(lambda *row: [blk.T for blk in row], *G)` (Python 2: shorter rows are padded with `None`). -/
def transposeGrid (attr : Nat → Option Nat) (G : Grid) : Except Err Grid :=
  match G with
  | [] => .error .typeError
  | _ => (List.range ((G.map List.length).foldl max 0)).mapM (colAt attr G)

/-- `B * xin` inside `blk_matvec`, lines 94 and 210 -/
def mulE (h : Heap K) (r : Nat) (x : Arr K) : Except Err (Arr K) := (run h h.length r x []).1

/-- `yout[:] += v` (line 94), `yout` of dtype class `yk`: sizes must agree unless `v` has one entry; the result of the
sum must be castable back (NumPy's `same_kind` rule). -/
def addInto (yk : DKind) (y : List K) (v : Arr K) : Except Err (List K) :=
  if yk.join v.kind ≠ yk then .error .typeError
  else if y.length = v.data.length then .ok (List.zipWith (· + ·) y v.data)
  else match v.data with
    | [a] => .ok (y.map (· + a))
    | _ => .error .valueError

/-- The inner loop, lines 90-95: `ws` are the remaining column widths, `x` the rest of the vector. -/
def blkRow (h : Heap K) (yk xk : DKind) : List Nat → List (Option Nat) → List K → List K → Except Err (List K)
  | [], _, _, y => .ok y
  | w :: ws, some r :: row, x, y => do
    let v ← mulE h r ⟨xk, x.take w⟩
    let y ← addInto yk y v
    blkRow h yk xk ws row (x.drop w) y
  | _ :: _, none :: _, _, _ => .error .typeError
  | _ :: _, [], _, _ => .error .indexError

/-- `blk_matvec`, lines 69-99; `k` is the dtype class of the block operator. -/
def blkMatvec (h : Heap K) (k : DKind) (blks : Grid) (x : Arr K) : Except Err (Arr K) := do
  let sh ← shapes h blks
  let r0 ← hd sh
  let firsts ← sh.mapM hd
  if x.data.length ≠ (r0.map Prod.snd).sum then .error .shapeError
  else
    let ys ← (blks.zip (firsts.map Prod.fst)).mapM fun p =>
      blkRow h (k.join x.kind) x.kind (r0.map Prod.snd) p.1 x.data (List.replicate p.2 0)
    .ok ⟨k.join x.kind, ys.flatten⟩

/-- A `BlockLinearOperator`: the values fixed at construction and the current lists of blocks (lines 21-115). -/
structure BlkOp where
  nargin : Nat
  nargout : Nat
  symmetric : Bool
  hermitian : Bool
  dtype : DKind
  blocks : Grid
  blocksT : Grid
  blocksH : Grid

/-- Lines 105-112: the arguments of the superclass constructor. -/
def BlkOp.args (h : Heap K) (b : BlkOp) : Args K :=
  ⟨b.nargin, b.nargout, .prim (blkMatvec h b.dtype b.blocks), some (.prim (blkMatvec h b.dtype b.blocksT)),
    some (.prim (blkMatvec h b.dtype b.blocksH)), b.symmetric, b.hermitian, b.dtype, none, none, none⟩

/-- The operator objects (the operator itself, its transpose, ...) with closures reading the current lists (lines 105-112). -/
def BlkOp.objs (h : Heap K) (b : BlkOp) : Nat × Heap K := LinearOperator (b.args h) h

/-- Lines 38-42, inner loop: `for j in range(i-1, -1, -1): blocks[i].insert(0, blocks[j][i].T)` -/
def fillRow (attr : Nat → Option Nat) (done : Grid) (row : List (Option Nat)) : Except Err (List (Option Nat)) :=
  (List.range done.length).reverse.foldlM (fun row j =>
    match done[j]?.bind fun r => r[done.length]? with
    | none => .error .indexError
    | some none => .error .attributeError
    | some (some r) => .ok (attr r :: row)) row

/-- Lines 37-42, outer loop (`done` are the rows already filled in). -/
def fillGrid (attr : Nat → Option Nat) : Grid → Grid → Except Err Grid
  | done, [] => .ok done
  | done, row :: rest => do
    let row ← fillRow attr done row
    fillGrid attr (done ++ [row]) rest

/-- `block_row[0].symmetric`, `block_row[0].hermitian`, lines 31, 33, 162-165 -/
def flagsOf (h : Heap K) : Option Nat → Except Err (Bool × Bool)
  | none => .error .attributeError
  | some r => match h[r]? with
    | some o => .ok (o.symmetric, o.hermitian)
    | none => .error .attributeError

/-- Lines 30-34 -/
def checkDiag (h : Heap K) (sym herm : Bool) (blocks : Grid) : Except Err Unit := do
  let _ ← blocks.mapM fun row => do
    let b ← hd row
    let (s, t) ← flagsOf h b
    if sym = true ∧ s = false then .error .valueError
    else if herm = true ∧ t = false then .error .valueError
    else .ok ()
  .ok ()

/-- dtype class of a block, lines 102 and 217 -/
def kindAt (h : Heap K) : Option Nat → DKind
  | some r => (h[r]?.map Obj.dtype).getD .int
  | none => .int

/-- Lines 101-103, `np.result_type` of all blocks -/
def gridKind (h : Heap K) (G : Grid) : DKind := (G.flatten.map (kindAt h)).foldl DKind.join .int

/-- `BlockLinearOperator(blocks, symmetric, hermitian)`, lines 21-115.  Returns the operator and the caller's nested list
afterwards: `copy` (lines 36, 45) is shallow, so the insertions of lines 40 and 42 go into the caller's rows. -/
def mkBlock (h : Heap K) (blocks : Grid) (sym herm : Bool) : Except Err (BlkOp × Grid) := do
  let G ← if sym = true ∨ herm = true then do
      let r0 ← hd blocks
      if blocks.length ≠ r0.length then .error .shapeError
      else
        checkDiag h sym herm blocks
        fillGrid (if sym = true then getT h else getH h) [] blocks
    else .ok blocks
  let (nargin, nargout) ← checkShapes h G
  let bT ← transposeGrid (getT h) G
  let bH ← transposeGrid (getH h) G
  let op : BlkOp := ⟨nargin, nargout, sym, herm, gridKind h G, G, bT, bH⟩
  let (r, h') := op.objs h
  -- lines 114-115: `self.T` / `self.H` may be the operator itself
  let b1 := if getT h' r = some r then bT else G
  let b2 := if getH h' r = some r then bH else b1
  .ok ({ op with blocks := b2 }, G)

/-- `blks_mat[i, j] = val` on a rectangular list of lists, lines 132-134 -/
def setAt (G : Grid) (i j : Int) (v : Nat) : Except Err Grid :=
  match pyIndex G.length i with
  | none => .error .indexError
  | some a => match G[a]? with
    | none => .error .indexError
    | some row => match pyIndex row.length j with
      | none => .error .indexError
      | some b => .ok (G.set a (row.set b (some v)))

/-- `self._blocks[i][j] = self._blocks[j][i].T`, lines 136-141 -/
def mirrorAt (attr : Nat → Option Nat) (G : Grid) (i j : Nat) : Except Err Grid :=
  match G[j]?.bind fun r => r[i]? with
  | none => .error .indexError
  | some none => .error .attributeError
  | some (some r) => .ok (G.modify i fun row => row.set j (attr r))

/-- Lines 136-141 -/
def mirrorAll (attr : Nat → Option Nat) (G : Grid) : Except Err Grid :=
  ((List.range G.length).flatMap fun i => (List.range i).map fun j => (i, j)).foldlM
    (fun G p => mirrorAt attr G p.1 p.2) G

/-- `op[i, j] = val`, lines 131-144 -/
def BlkOp.set (h : Heap K) (b : BlkOp) (i j : Int) (v : Nat) : Except Err BlkOp := do
  let G ← setAt b.blocks i j v
  if b.symmetric = true ∨ b.hermitian = true then
    let G ← mirrorAll (if b.symmetric = true then getT h else getH h) G
    .ok { b with blocks := G }
  else
    let bT ← transposeGrid (getT h) G
    let bH ← transposeGrid (getH h) G
    .ok { b with blocks := G, blocksT := bT, blocksH := bH }

/-! ## Block diagonal operators -/

/-- `yout[:] = v` (line 210), `yout` of size `n` and dtype class `yk` (assignment casts whatever the dtype) -/
def assignInto (yk : DKind) (n : Nat) (v : Arr K) : Except Err (List K) :=
  if n = v.data.length then .ok (v.astype yk).data
  else match (v.astype yk).data with
    | [a] => .ok (List.replicate n a)
    | _ => .error .valueError

/-- The loop of lines 202-213: remaining blocks `blks` and remaining `(nargout, nargin)` of `blocks`. -/
def diagLoop (h : Heap K) (yk xk : DKind) : List (Option Nat) → List (Nat × Nat) → List K → Except Err (List (List K))
  | [], _, _ => .ok []
  | _ :: _, [], _ => .error .indexError
  | none :: _, _ :: _, _ => .error .typeError
  | some r :: blks, s :: sh, x => do
    let v ← mulE h r ⟨xk, x.take s.2⟩
    let y ← assignInto yk s.1 v
    let ys ← diagLoop h yk xk blks sh (x.drop s.2)
    .ok (y :: ys)

/-- `blk_matvec`, lines 185-215.  The sizes come from the variable `blocks` of the constructor (lines 187-190), not from
the argument `blks`.  Entries of `y` that no block writes to (fewer blocks than sizes) are arbitrary: modelled as an
error. -/
def diagMatvec (h : Heap K) (k : DKind) (blocks blks : List (Option Nat)) (x : Arr K) : Except Err (Arr K) := do
  let sh ← blocks.mapM (blkShape h)
  if x.data.length ≠ (sh.map Prod.snd).sum then .error .shapeError
  else if blks.length < sh.length then .error .unboundLocal
  else
    let ys ← diagLoop h (k.join x.kind) x.kind blks sh x.data
    .ok ⟨k.join x.kind, ys.flatten⟩

/-- A `BlockDiagonalLinearOperator`; `sizes` is the list held by the closure variable `blocks`, `own` says whether
`self._blocks` is still that same list object. -/
structure DiagOp where
  nargin : Nat
  nargout : Nat
  symmetric : Bool
  hermitian : Bool
  dtype : DKind
  sizes : List (Option Nat)
  own : Bool
  blocks : List (Option Nat)
  blocksT : List (Option Nat)
  blocksH : List (Option Nat)

/-- Lines 220-227: the arguments of the superclass constructor. -/
def DiagOp.args (h : Heap K) (b : DiagOp) : Args K :=
  ⟨b.nargin, b.nargout, .prim (diagMatvec h b.dtype b.sizes b.blocks),
    some (.prim (diagMatvec h b.dtype b.sizes b.blocksT)),
    some (.prim (diagMatvec h b.dtype b.sizes b.blocksH)), b.symmetric, b.hermitian, b.dtype, none, none, none⟩

/-- The operator objects with closures reading the current lists (lines 220-227). -/
def DiagOp.objs (h : Heap K) (b : DiagOp) : Nat × Heap K := LinearOperator (b.args h) h

/-- `[blk.T for blk in blocks]`, lines 182-183, 254, 256 -/
def mapAttr (attr : Nat → Option Nat) (blocks : List (Option Nat)) : Except Err (List (Option Nat)) :=
  blocks.mapM fun b => match b with
    | some r => .ok (attr r)
    | none => .error .attributeError

/-- `BlockDiagonalLinearOperator(blocks)`, lines 160-230; `reduce` of an empty list raises `TypeError`. -/
def mkDiag (h : Heap K) (blocks : List (Option Nat)) : Except Err DiagOp := do
  let fl ← blocks.mapM (flagsOf h)
  if fl = [] then .error .typeError
  else
    let sym := fl.all Prod.fst
    let herm := fl.all Prod.snd
    let sh ← blocks.mapM (blkShape h)
    let bT ← mapAttr (getT h) blocks
    let bH ← mapAttr (getH h) blocks
    let op : DiagOp := ⟨(sh.map Prod.snd).sum, (sh.map Prod.fst).sum, sym, herm,
      (blocks.map (kindAt h)).foldl DKind.join .int, blocks, true, blocks, bT, bH⟩
    let (r, h') := op.objs h
    let b1 := if getT h' r = some r then bT else blocks
    let b2 := if getH h' r = some r then bH else b1
    .ok { op with blocks := b2, own := !(getT h' r = some r ∨ getH h' r = some r) }

/-- `op[i] = blk`, lines 245-256, for an integer index. -/
def DiagOp.set (h : Heap K) (b : DiagOp) (i : Int) (v : Nat) : Except Err DiagOp :=
  match pyIndex b.blocks.length i with
  | none => .error .indexError
  | some k => do
    let bl := b.blocks.set k (some v)
    let b := { b with blocks := bl, sizes := if b.own then bl else b.sizes }
    let b ← if b.symmetric = true then .ok b else do
      let bT ← mapAttr (getT h) bl
      .ok { b with blocksT := bT }
    if b.hermitian = true then .ok b else do
      let bH ← mapAttr (getH h) bl
      .ok { b with blocksH := bH }

end
end Verif.Blkop
