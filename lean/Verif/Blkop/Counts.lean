import Verif.Blkop.Model

/-!
# Model of the products of `pykrylov/linop/blkop.py` with the counters of the blocks

`Verif.Blkop.Model` treats the closures of a block operator as functions of the user, which leave the counters alone.  Here the same
closures are written again with the products `B * xin` counted, as `run` counts them.  `Verif.Blkop.CountProps` proves that both
return the same, and what the counters are.
-/

namespace Verif.Blkop
open Verif.Linop

variable {K : Type} [CommRing K] [StarRing K] [DTypes K]

/-- The inner loop, `blkop.py:90-95`, see `blkRow`. -/
def blkRowC (h : Heap K) (yk xk : DKind) : List Nat → List (Option Nat) → List K → List K → Act (List K)
  | [], _, _, y => Act.pure y
  | w :: ws, some r :: row, x, y => do
    let v ← run h h.length r ⟨xk, x.take w⟩
    let y ← liftE (addInto yk y v)
    blkRowC h yk xk ws row (x.drop w) y
  | _ :: _, none :: _, _, _ => Act.raise .typeError
  | _ :: _, [], _, _ => Act.raise .indexError

/-- The outer loop, `blkop.py:87-97`: the rows with their heights. -/
def blkRowsC (h : Heap K) (yk xk : DKind) (ws : List Nat) (x : List K) : List (List (Option Nat) × Nat) → Act (List (List K))
  | [] => Act.pure []
  | p :: ps => do
    let y ← blkRowC h yk xk ws p.1 x (List.replicate p.2 0)
    let ys ← blkRowsC h yk xk ws x ps
    Act.pure (y :: ys)

/-- `blk_matvec`, `blkop.py:69-99`, see `blkMatvec`. -/
def blkMatvecC (h : Heap K) (k : DKind) (blks : Grid) (x : Arr K) : Act (Arr K) := do
  let sh ← liftE (shapes h blks)
  let r0 ← liftE (hd sh)
  let firsts ← liftE (sh.mapM hd)
  if x.data.length ≠ (r0.map Prod.snd).sum then Act.raise .shapeError
  else
    let ys ← blkRowsC h (k.join x.kind) x.kind (r0.map Prod.snd) x.data (blks.zip (firsts.map Prod.fst))
    Act.pure ⟨k.join x.kind, ys.flatten⟩

/-- The loop of `blkop.py:202-213`, see `diagLoop`. -/
def diagLoopC (h : Heap K) (yk xk : DKind) : List (Option Nat) → List (Nat × Nat) → List K → Act (List (List K))
  | [], _, _ => Act.pure []
  | _ :: _, [], _ => Act.raise .indexError
  | none :: _, _ :: _, _ => Act.raise .typeError
  | some r :: blks, s :: sh, x => do
    let v ← run h h.length r ⟨xk, x.take s.2⟩
    let y ← liftE (assignInto yk s.1 v)
    let ys ← diagLoopC h yk xk blks sh (x.drop s.2)
    Act.pure (y :: ys)

/-- `blk_matvec`, `blkop.py:185-215`, see `diagMatvec`. -/
def diagMatvecC (h : Heap K) (k : DKind) (blocks blks : List (Option Nat)) (x : Arr K) : Act (Arr K) := do
  let sh ← liftE (blocks.mapM (blkShape h))
  if x.data.length ≠ (sh.map Prod.snd).sum then Act.raise .shapeError
  else if blks.length < sh.length then Act.raise .unboundLocal
  else
    let ys ← diagLoopC h (k.join x.kind) x.kind blks sh x.data
    Act.pure ⟨k.join x.kind, ys.flatten⟩

/-- `op * x`, `linop.py:356-360, 271-298`, for the object `q` of the heap `h'` whose closure is `f`, see `run`. -/
def productC (h' : Heap K) (f : Arr K → Act (Arr K)) (q : Nat) (x : Arr K) : Act (Arr K) :=
  match h'[q]? with
  | none => Act.raise .typeError
  | some o => do
    bump q
    if x.data.length ≠ o.nargin then Act.raise .valueError
    else
      let y ← f x
      if y.data.length ≠ o.nargout then Act.raise .valueError
      else Act.pure (y.astype (o.dtype.join x.kind))

/-- The list of blocks read by the closure of the operator, of its transpose and of its adjoint (`blkop.py:105-112`).  An operator flagged
symmetric is its own transpose, one flagged hermitian its own adjoint (`linop.py:148-194`). -/
def BlkOp.grid (b : BlkOp) : Sel → Grid
  | .self => b.blocks
  | .T => if b.symmetric = true then b.blocks else b.blocksT
  | .H => if b.hermitian = true then b.blocks else b.blocksH

/-- `op * x`, `op.T * x` and `op.H * x` for a block operator with blocks in the heap `h`.  Simplification: for flagged complex operators
`op.T` and `op.H` can be the conjugate of `op`, whose closure is different; this is not modelled here. -/
def BlkOp.mulC (h : Heap K) (b : BlkOp) (s : Sel) (x : Arr K) : Act (Arr K) :=
  match resolve (b.objs h).2 ⟨(b.objs h).1, s⟩ with
  | .error e => Act.raise e
  | .ok q => productC (b.objs h).2 (blkMatvecC h b.dtype (b.grid s)) q x

/-- The same for block diagonal operators (`blkop.py:220-227`). -/
def DiagOp.list (b : DiagOp) : Sel → List (Option Nat)
  | .self => b.blocks
  | .T => if b.symmetric = true then b.blocks else b.blocksT
  | .H => if b.hermitian = true then b.blocks else b.blocksH

/-- `op * x`, `op.T * x` and `op.H * x` for a block diagonal operator, with the simplification of `BlkOp.mulC`. -/
def DiagOp.mulC (h : Heap K) (b : DiagOp) (s : Sel) (x : Arr K) : Act (Arr K) :=
  match resolve (b.objs h).2 ⟨(b.objs h).1, s⟩ with
  | .error e => Act.raise e
  | .ok q => productC (b.objs h).2 (diagMatvecC h b.dtype b.sizes (b.list s)) q x

end Verif.Blkop
