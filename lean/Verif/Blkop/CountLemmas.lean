import Verif.Blkop.Counts
import Verif.Blkop.Ops
import Verif.Blkop.Props
import Verif.Blkop.DiagProps
import Verif.Linop.Props2

/-!
# Helper lemmas: products of block operators with the counters of the blocks
-/

set_option linter.unusedSectionVars false

namespace Verif.Blkop
open Verif.Linop

variable {K : Type} [CommRing K] [StarRing K] [DTypes K]

/-! ### Counters do not influence results -/

/-- the outcome of `a` is `e`, whatever the counters are -/
def Outcome {α : Type} (a : Act α) (e : Except Err α) : Prop := ∀ c, (a c).1 = e

theorem Outcome.pure {α : Type} (a : α) : Outcome (Act.pure a) (.ok a) := fun _ => rfl
theorem Outcome.raise {α : Type} (e : Err) : Outcome (Act.raise e : Act α) (.error e) := fun _ => rfl
theorem Outcome.lift {α : Type} (e : Except Err α) : Outcome (liftE e) e := fun _ => rfl
theorem Outcome.bind {α β : Type} {a : Act α} {f : α → Act β} {e : Except Err α} {g : α → Except Err β} (ha : Outcome a e)
    (hf : ∀ v, Outcome (f v) (g v)) : Outcome (a >>= f) (e >>= g) := by
  intro c
  change (Act.bind a f c).1 = _
  unfold Act.bind
  have h1 := ha c
  cases hac : a c with
  | mk res c1 =>
    rw [hac] at h1
    cases h1
    cases res with
    | error e => rfl
    | ok v => exact hf v c1
theorem Outcome.ite {α : Type} {p : Prop} [Decidable p] {a b : Act α} {e f : Except Err α} (h1 : Outcome a e) (h2 : Outcome b f) :
    Outcome (if p then a else b) (if p then e else f) := by
  split
  · exact h1
  · exact h2

/-- actions whose outcome does not depend on the counters -/
def Indep {α : Type} (a : Act α) : Prop := ∃ e, Outcome a e

theorem Indep.bind {α β : Type} {a : Act α} {f : α → Act β} (ha : Indep a) (hf : ∀ v, Indep (f v)) : Indep (a >>= f) := by
  obtain ⟨e, he⟩ := ha
  exact ⟨_, Outcome.bind he fun v => (hf v).choose_spec⟩
theorem Indep.pure {α : Type} (a : α) : Indep (Act.pure a) := ⟨_, .pure a⟩
theorem Indep.lift {α : Type} (e : Except Err α) : Indep (liftE e) := ⟨_, .lift e⟩
theorem Indep.raise {α : Type} (e : Err) : Indep (Act.raise e : Act α) := ⟨_, .raise e⟩

theorem evalCode_indep {h : Heap K} {app : Nat → Arr K → Act (Arr K)} (happ : ∀ r x, Indep (app r x)) (code : Code K) (x : Arr K) :
    Indep (evalCode h app code x) := by
  cases code with
  | prim f => exact .lift _
  | conj t =>
    refine (Indep.lift _).bind fun r => ?_
    split
    · exact (happ _ _).bind fun _ => .pure _
    · exact (happ _ _).bind fun _ => .pure _
  | scal a ka t => exact (Indep.lift _).bind fun r => (happ _ _).bind fun _ => .pure _
  | comp o i => exact (Indep.lift _).bind fun r => (happ _ _).bind fun _ => (Indep.lift _).bind fun _ => happ _ _
  | add a b =>
    exact (Indep.lift _).bind fun r => (happ _ _).bind fun _ => (Indep.lift _).bind fun _ => (happ _ _).bind fun _ => .lift _
  | sub a b =>
    exact (Indep.lift _).bind fun r => (happ _ _).bind fun _ => (Indep.lift _).bind fun _ => (happ _ _).bind fun _ => .lift _
  | gather n put take t =>
    exact (Indep.lift _).bind fun z => (Indep.lift _).bind fun _ => (happ _ _).bind fun _ => (Indep.lift _).bind fun _ => .pure _

theorem run_indep (h : Heap K) : ∀ (fuel r : Nat) (x : Arr K), Indep (run h fuel r x)
  | 0, _, _ => .raise _
  | fuel + 1, r, x => by
    unfold run
    cases h[r]? with
    | none => exact .raise _
    | some o =>
      refine Indep.bind ⟨.ok (), fun _ => rfl⟩ fun _ => ?_
      split
      · exact .raise _
      · refine (evalCode_indep (run_indep h fuel) _ _).bind fun y => ?_
        split
        · exact .raise _
        · exact .pure _

theorem run_outcome (h : Heap K) (fuel r : Nat) (x : Arr K) (c : Cnt) : Outcome (run h fuel r x) (run h fuel r x c).1 := by
  obtain ⟨e, he⟩ := run_indep h fuel r x
  intro d
  rw [he d, he c]

/-! ### The counting closures return what the closures return -/

theorem blkRowC_outcome (h : Heap K) (yk xk : DKind) : ∀ (ws : List Nat) (row : List (Option Nat)) (x y : List K),
    Outcome (blkRowC h yk xk ws row x y) (blkRow h yk xk ws row x y)
  | [], _, _, _ => by rw [blkRowC, blkRow]; exact .pure _
  | _ :: _, [], _, _ => by rw [blkRowC, blkRow]; exact .raise _
  | _ :: _, none :: _, _, _ => by rw [blkRowC, blkRow]; exact .raise _
  | w :: ws, some r :: row, x, y => by
    rw [blkRowC, blkRow]
    exact (run_outcome h h.length r _ []).bind fun v => (Outcome.lift _).bind fun y => blkRowC_outcome h yk xk ws row _ y

theorem blkRowsC_outcome (h : Heap K) (yk xk : DKind) (ws : List Nat) (x : List K) : ∀ ps : List (List (Option Nat) × Nat),
    Outcome (blkRowsC h yk xk ws x ps) (ps.mapM fun p => blkRow h yk xk ws p.1 x (List.replicate p.2 0))
  | [] => by rw [blkRowsC]; exact .pure _
  | p :: ps => by
    rw [blkRowsC, List.mapM_cons]
    exact (blkRowC_outcome h yk xk ws p.1 x _).bind fun y => (blkRowsC_outcome h yk xk ws x ps).bind fun ys => .pure _

theorem blkMatvecC_outcome (h : Heap K) (k : DKind) (blks : Grid) (x : Arr K) :
    Outcome (blkMatvecC h k blks x) (blkMatvec h k blks x) :=
  (Outcome.lift _).bind fun sh => (Outcome.lift _).bind fun r0 => (Outcome.lift _).bind fun firsts =>
    Outcome.ite (.raise _) ((blkRowsC_outcome h _ _ _ _ _).bind fun ys => .pure _)

theorem diagLoopC_outcome (h : Heap K) (yk xk : DKind) : ∀ (blks : List (Option Nat)) (sh : List (Nat × Nat)) (x : List K),
    Outcome (diagLoopC h yk xk blks sh x) (diagLoop h yk xk blks sh x)
  | [], _, _ => by rw [diagLoopC, diagLoop]; exact .pure _
  | none :: _, [], _ => by rw [diagLoopC, diagLoop]; exact .raise _
  | some _ :: _, [], _ => by rw [diagLoopC, diagLoop]; exact .raise _
  | none :: _, _ :: _, _ => by rw [diagLoopC, diagLoop]; exact .raise _
  | some r :: blks, s :: sh, x => by
    rw [diagLoopC, diagLoop]
    exact (run_outcome h h.length r _ []).bind fun v => (Outcome.lift _).bind fun y =>
      (diagLoopC_outcome h yk xk blks sh _).bind fun ys => .pure _

theorem diagMatvecC_outcome (h : Heap K) (k : DKind) (blocks blks : List (Option Nat)) (x : Arr K) :
    Outcome (diagMatvecC h k blocks blks x) (diagMatvec h k blocks blks x) :=
  (Outcome.lift _).bind fun sh => Outcome.ite (.raise _) (Outcome.ite (.raise _)
    ((diagLoopC_outcome h _ _ _ _ _).bind fun ys => .pure _))

/-- a counting product returns what the product returns -/
theorem productC_outcome {h' : Heap K} {q : Nat} {o : Obj K} {f : Arr K → Act (Arr K)} {g : Arr K → Except Err (Arr K)}
    (ho : h'[q]? = some o) (hc : o.code = .prim g) (hf : ∀ x, Outcome (f x) (g x)) (fuel : Nat) (x : Arr K) (c d : Cnt) :
    (productC h' f q x c).1 = (run h' (fuel + 1) q x d).1 := by
  simp only [productC, run, ho]
  have hb : ∀ c, bump q c = (.ok (), c.modify q (· + 1)) := fun _ => rfl
  rw [bind_ok (hb c), bind_ok (hb d)]
  split
  · rfl
  · rw [hc]
    have h1 := Outcome.bind (hf x) (f := fun y => if y.data.length ≠ o.nargout then Act.raise .valueError
      else Act.pure (y.astype (o.dtype.join x.kind))) (g := fun y => if y.data.length ≠ o.nargout then .error .valueError
      else .ok (y.astype (o.dtype.join x.kind))) (fun y => Outcome.ite (.raise _) (.pure _)) (c.modify q (· + 1))
    have h2 := Outcome.bind (Outcome.lift (g x)) (f := fun y => if y.data.length ≠ o.nargout then Act.raise .valueError
      else Act.pure (y.astype (o.dtype.join x.kind))) (g := fun y => if y.data.length ≠ o.nargout then .error .valueError
      else .ok (y.astype (o.dtype.join x.kind))) (fun y => Outcome.ite (.raise _) (.pure _)) (d.modify q (· + 1))
    exact h1.trans h2.symm

/-! ### Which closure belongs to `op`, `op.T`, `op.H` -/

theorem ctor_closures (nin nout : Nat) (mv mt ma : Code K) (sy he : Bool) (dt : DKind) (h : Heap K) (s : Sel)
    (hs : dt ≠ .complex ∨ (sy = false ∧ he = false) ∨ s = .self) (p : Nat × Heap K)
    (hp : LinearOperator ⟨nin, nout, mv, some mt, some ma, sy, he, dt, none, none, none⟩ h = p) :
    ∃ q o, resolve p.2 ⟨p.1, s⟩ = .ok q ∧ h.length ≤ q ∧ p.2[q]? = some o ∧
      o.nargin = (match s with | .self => nin | .T => if sy then nin else nout | .H => if he then nin else nout) ∧
      o.code = (match s with | .self => mv | .T => if sy then mv else mt | .H => if he then mv else ma) := by
  subst hp
  by_cases hd : dt = .complex
  · subst hd
    rw [LinearOperator_complex]
    simp only [ne_eq, not_true_eq_false, false_or] at hs
    cases s
    · cases sy <;> cases he <;>
        exact ⟨h.length, _, by simp [resolve, newComplex]; try rfl, le_rfl, by simp [newComplex]; rfl, rfl, rfl⟩
    all_goals
      simp only [reduceCtorEq, or_false] at hs
      obtain ⟨rfl, rfl⟩ := hs
    · exact ⟨h.length + 1, _, by simp [resolve, newComplex, mkFwd], by omega, by simp [newComplex]; rfl, rfl, rfl⟩
    · exact ⟨h.length + 2, _, by simp [resolve, newComplex, mkFwd], by omega, by simp [newComplex]; rfl, rfl, rfl⟩
  · rw [LinearOperator_real _ _ _ _ _ _ _ _ hd]
    cases s <;> cases sy <;> cases he
    all_goals first
      | exact ⟨h.length, _, by simp [resolve, newReal, mkFwd], by omega, by simp [newReal]; rfl, rfl, rfl⟩
      | exact ⟨h.length + 1, _, by simp [resolve, newReal, mkFwd], by omega, by simp [newReal]; rfl, rfl, rfl⟩
      | exact ⟨h.length + 2, _, by simp [resolve, newReal, mkFwd], by omega, by simp [newReal]; rfl, rfl, rfl⟩

/-! ### Counters -/

/-- an action adds `d` to counter `i` if it returns -/
def AddsAt {α : Type} (a : Act α) (i d : Nat) : Prop := ∀ c v c', a c = (.ok v, c') → c'[i]? = c[i]?.map (· + d)

theorem AddsAt.pure {α : Type} (a : α) (i : Nat) : AddsAt (Act.pure a) i 0 := by
  intro c v c' h
  obtain ⟨_, rfl⟩ := pure_ok h
  simp
theorem AddsAt.lift {α : Type} (e : Except Err α) (i : Nat) : AddsAt (liftE e) i 0 := by
  intro c v c' h
  obtain ⟨_, rfl⟩ := liftE_ok h
  simp
theorem AddsAt.raise {α : Type} (e : Err) (i d : Nat) : AddsAt (Act.raise e : Act α) i d := by
  intro c v c' h
  simp [Act.raise] at h
theorem AddsAt.bind {α β : Type} {a : Act α} {f : α → Act β} {i d e : Nat} (ha : AddsAt a i d) (hf : ∀ v, AddsAt (f v) i e) :
    AddsAt (a >>= f) i (d + e) := by
  intro c v c' h
  obtain ⟨w, c1, h1, h2⟩ := act_bind_ok h
  rw [hf w _ _ _ h2, ha _ _ _ h1, Option.map_map]
  congr 1; funext n; simp only [Function.comp]; omega
theorem AddsAt.bind0 {α β : Type} {a : Act α} {f : α → Act β} {i d : Nat} (ha : AddsAt a i 0) (hf : ∀ v, AddsAt (f v) i d) :
    AddsAt (a >>= f) i d := by
  have := ha.bind hf
  rwa [Nat.zero_add] at this

/-- the number of products with the blocks of a list, block `r` counting `d r` -/
def total (d : Nat → Nat) (l : List (Option Nat)) : Nat := (l.map fun b => b.elim 0 d).sum

theorem blkRowC_adds {h : Heap K} {i : Nat} {d : Nat → Nat} (yk xk : DKind) : ∀ (ws : List Nat) (row : List (Option Nat)) (x y : List K),
    row.length = ws.length → (∀ r, some r ∈ row → EachProductAdds h r i (d r)) →
    AddsAt (blkRowC h yk xk ws row x y) i (total d row)
  | [], row, _, _, hl, _ => by
    rw [List.length_eq_zero_iff.1 hl, blkRowC]
    exact .pure _ _
  | _ :: _, [], _, _, _, _ => by rw [blkRowC]; exact .raise _ _ _
  | _ :: _, none :: _, _, _, _, _ => by rw [blkRowC]; exact .raise _ _ _
  | w :: ws, some r :: row, x, y, hl, hd => by
    rw [blkRowC]
    have h1 : AddsAt (run h h.length r ⟨xk, x.take w⟩) i (d r) := fun c v c' hr => hd r (by simp) _ _ _ _ _ hr
    have h2 := fun v : Arr K => (AddsAt.lift (addInto yk y v) i).bind0 fun y' =>
      blkRowC_adds yk xk ws row (x.drop w) y' (by simpa using hl) (fun q hq => hd q (by simp [hq]))
    exact h1.bind h2

theorem blkRowsC_adds {h : Heap K} {i : Nat} {d : Nat → Nat} (yk xk : DKind) (ws : List Nat) (x : List K) :
    ∀ ps : List (List (Option Nat) × Nat), (∀ p ∈ ps, p.1.length = ws.length) →
    (∀ p ∈ ps, ∀ r, some r ∈ p.1 → EachProductAdds h r i (d r)) →
    AddsAt (blkRowsC h yk xk ws x ps) i (total d (ps.map Prod.fst).flatten)
  | [], _, _ => by rw [blkRowsC]; exact .pure _ _
  | p :: ps, hl, hd => by
    rw [blkRowsC]
    have h1 := blkRowC_adds (h := h) (i := i) yk xk ws p.1 x (List.replicate p.2 0) (hl p (by simp)) (hd p (by simp))
    have h2 := blkRowsC_adds yk xk ws x ps (fun p hp => hl p (by simp [hp])) (fun p hp => hd p (by simp [hp]))
    have h3 := h1.bind fun y => h2.bind fun ys => AddsAt.pure (y :: ys) i
    simpa [total] using h3

theorem mapM_length {α β : Type} {f : α → Except Err β} : ∀ {l : List α} {l' : List β}, l.mapM f = .ok l' → l'.length = l.length
  | [], l', h => by
    rw [List.mapM_nil] at h; cases h; rfl
  | a :: l, l', h => by
    rw [List.mapM_cons] at h
    obtain ⟨b, h1, h⟩ := ebind_ok h
    obtain ⟨bs, h2, h⟩ := ebind_ok h
    cases h
    simp [mapM_length h2]

/-- Products with a rectangular list of blocks: every block is used once for every time it occurs. -/
theorem blkMatvecC_adds {h : Heap K} {k : DKind} {G : Grid} {n : Nat} (hn : ∀ row ∈ G, row.length = n) {i : Nat} {d : Nat → Nat}
    (hd : ∀ r, some r ∈ G.flatten → EachProductAdds h r i (d r)) (x : Arr K) :
    AddsAt (blkMatvecC h k G x) i (total d G.flatten) := by
  intro c v c' hr
  unfold blkMatvecC at hr
  replace hr := act_bind_ok hr; obtain ⟨sh, c1, h1, hr⟩ := hr
  replace h1 := liftE_ok h1; obtain ⟨h1, rfl⟩ := h1
  replace hr := act_bind_ok hr; obtain ⟨r0, c2, h2, hr⟩ := hr
  replace h2 := liftE_ok h2; obtain ⟨h2, rfl⟩ := h2
  replace hr := act_bind_ok hr; obtain ⟨firsts, c3, h3, hr⟩ := hr
  replace h3 := liftE_ok h3; obtain ⟨h3, rfl⟩ := h3
  split at hr
  · simp [Act.raise] at hr
  · replace hr := act_bind_ok hr; obtain ⟨ys, c4, h4, hr⟩ := hr
    obtain ⟨_, rfl⟩ := pure_ok hr
    have hsh : sh.length = G.length := mapM_length h1
    have hf : firsts.length = G.length := (mapM_length h3).trans hsh
    have hz : (G.zip (firsts.map Prod.fst)).map Prod.fst = G := by
      rw [List.map_fst_zip]; simp [hf]
    have hw : r0.length = n := by
      cases G with
      | nil =>
        have : sh = [] := List.length_eq_zero_iff.1 hsh
        subst this; cases h2
      | cons row G =>
        unfold shapes at h1
        rw [List.mapM_cons] at h1
        replace h1 := ebind_ok h1; obtain ⟨b, h5, h1⟩ := h1
        replace h1 := ebind_ok h1; obtain ⟨bs, h6, h1⟩ := h1
        cases h1
        cases h2
        rw [mapM_length h5]
        exact hn row (by simp)
    have hmem : ∀ p ∈ G.zip (firsts.map Prod.fst), p.1 ∈ G := fun p hp => (List.of_mem_zip hp).1
    have := blkRowsC_adds (h := h) (i := i) (d := d) (k.join x.kind) x.kind (r0.map Prod.snd) x.data (G.zip (firsts.map Prod.fst))
      (fun p hp => by rw [hn _ (hmem p hp)]; simp [hw])
      (fun p hp r hr => hd r (List.mem_flatten.2 ⟨p.1, hmem p hp, hr⟩)) _ _ _ h4
    rwa [hz] at this

theorem diagLoopC_adds {h : Heap K} {i : Nat} {d : Nat → Nat} (yk xk : DKind) : ∀ (blks : List (Option Nat)) (sh : List (Nat × Nat))
    (x : List K), (∀ r, some r ∈ blks → EachProductAdds h r i (d r)) → AddsAt (diagLoopC h yk xk blks sh x) i (total d blks)
  | [], _, _, _ => by rw [diagLoopC]; exact .pure _ _
  | none :: _, [], _, _ => by rw [diagLoopC]; exact .raise _ _ _
  | some _ :: _, [], _, _ => by rw [diagLoopC]; exact .raise _ _ _
  | none :: _, _ :: _, _, _ => by rw [diagLoopC]; exact .raise _ _ _
  | some r :: blks, s :: sh, x, hd => by
    rw [diagLoopC]
    have h1 : AddsAt (run h h.length r ⟨xk, x.take s.2⟩) i (d r) := fun c v c' hr => hd r (by simp) _ _ _ _ _ hr
    have h2 := h1.bind fun v => (AddsAt.lift (assignInto yk s.1 v) i).bind0 fun y =>
      (diagLoopC_adds (d := d) yk xk blks sh (x.drop s.2) (fun q hq => hd q (by simp [hq]))).bind fun ys => AddsAt.pure (y :: ys) i
    simpa [total] using h2

theorem diagMatvecC_adds {h : Heap K} {k : DKind} {sizes blks : List (Option Nat)} {i : Nat} {d : Nat → Nat}
    (hd : ∀ r, some r ∈ blks → EachProductAdds h r i (d r)) (x : Arr K) :
    AddsAt (diagMatvecC h k sizes blks x) i (total d blks) := by
  unfold diagMatvecC
  refine (AddsAt.lift _ i).bind0 fun sh => ?_
  split
  · exact .raise _ _ _
  · split
    · exact .raise _ _ _
    · have := (diagLoopC_adds (d := d) (k.join x.kind) x.kind blks sh x.data hd).bind fun ys =>
        AddsAt.pure (⟨k.join x.kind, ys.flatten⟩ : Arr K) i
      exact this

theorem bump_addsAt {q i : Nat} (hi : i ≠ q) : AddsAt (bump q) i 0 := by
  intro c v c' h
  simp only [bump, Prod.mk.injEq] at h
  rw [← h.2, modify_other hi]
  simp

theorem productC_adds {h' : Heap K} {f : Arr K → Act (Arr K)} {q i d : Nat} (hi : i ≠ q) {x : Arr K} (hf : AddsAt (f x) i d) :
    AddsAt (productC h' f q x) i d := by
  unfold productC
  split
  · exact .raise _ _ _
  · refine (bump_addsAt hi).bind0 fun _ => ?_
    split
    · exact .raise _ _ _
    · refine AddsAt.bind (d := d) (e := 0) hf fun y => ?_
      split
      · exact .raise _ _ _
      · exact .pure _ _

/-- a product with a vector of the wrong size uses no block -/
theorem productC_wrong {h' : Heap K} {f : Arr K → Act (Arr K)} {q : Nat} {o : Obj K} (ho : h'[q]? = some o) {x : Arr K}
    (hx : x.data.length ≠ o.nargin) (c : Cnt) : productC h' f q x c = (.error .valueError, c.modify q (· + 1)) := by
  simp only [productC, ho]
  rw [bind_ok (show bump q c = (.ok (), c.modify q (· + 1)) from rfl), if_pos hx]
  rfl

/-! ### The counters of operators that are not blocks -/

theorem run_below {h : Heap K} (O : Ordered h) (fuel r : Nat) (x : Arr K) : ActBelow h.length (run h fuel r x) := by
  intro c
  obtain ⟨h1, h2, _⟩ := run_own O fuel r x c
  refine ⟨h1, fun i hi => ?_⟩
  by_cases hr : r < h.length
  · exact h2 i (by omega)
  · cases fuel with
    | zero => rfl
    | succ f =>
      have : h[r]? = none := List.getElem?_eq_none_iff.2 (by omega)
      simp only [run, this]
      rfl

theorem blkRowC_below {h : Heap K} (O : Ordered h) (yk xk : DKind) : ∀ (ws : List Nat) (row : List (Option Nat)) (x y : List K),
    ActBelow h.length (blkRowC h yk xk ws row x y)
  | [], _, _, _ => by rw [blkRowC]; exact .pure _ _
  | _ :: _, [], _, _ => by rw [blkRowC]; exact .raise _ _
  | _ :: _, none :: _, _, _ => by rw [blkRowC]; exact .raise _ _
  | w :: ws, some r :: row, x, y => by
    rw [blkRowC]
    exact (run_below O _ _ _).bind fun v _ _ _ => (ActBelow.lift _ _).bind fun y _ _ _ => blkRowC_below O yk xk ws row _ y

theorem blkRowsC_below {h : Heap K} (O : Ordered h) (yk xk : DKind) (ws : List Nat) (x : List K) :
    ∀ ps : List (List (Option Nat) × Nat), ActBelow h.length (blkRowsC h yk xk ws x ps)
  | [] => by rw [blkRowsC]; exact .pure _ _
  | p :: ps => by
    rw [blkRowsC]
    exact (blkRowC_below O yk xk ws p.1 x _).bind fun y _ _ _ => (blkRowsC_below O yk xk ws x ps).bind fun ys _ _ _ => .pure _ _

theorem blkMatvecC_below {h : Heap K} (O : Ordered h) (k : DKind) (blks : Grid) (x : Arr K) :
    ActBelow h.length (blkMatvecC h k blks x) := by
  unfold blkMatvecC
  refine (ActBelow.lift _ _).bind fun sh _ _ _ => (ActBelow.lift _ _).bind fun r0 _ _ _ => (ActBelow.lift _ _).bind fun f _ _ _ => ?_
  split
  · exact .raise _ _
  · exact (blkRowsC_below O _ _ _ _ _).bind fun ys _ _ _ => .pure _ _

theorem diagLoopC_below {h : Heap K} (O : Ordered h) (yk xk : DKind) : ∀ (blks : List (Option Nat)) (sh : List (Nat × Nat))
    (x : List K), ActBelow h.length (diagLoopC h yk xk blks sh x)
  | [], _, _ => by rw [diagLoopC]; exact .pure _ _
  | none :: _, [], _ => by rw [diagLoopC]; exact .raise _ _
  | some _ :: _, [], _ => by rw [diagLoopC]; exact .raise _ _
  | none :: _, _ :: _, _ => by rw [diagLoopC]; exact .raise _ _
  | some r :: blks, s :: sh, x => by
    rw [diagLoopC]
    exact (run_below O _ _ _).bind fun v _ _ _ => (ActBelow.lift _ _).bind fun y _ _ _ =>
      (diagLoopC_below O yk xk blks sh _).bind fun ys _ _ _ => .pure _ _

theorem diagMatvecC_below {h : Heap K} (O : Ordered h) (k : DKind) (sizes blks : List (Option Nat)) (x : Arr K) :
    ActBelow h.length (diagMatvecC h k sizes blks x) := by
  unfold diagMatvecC
  refine (ActBelow.lift _ _).bind fun sh _ _ _ => ?_
  split
  · exact .raise _ _
  · split
    · exact .raise _ _
    · exact (diagLoopC_below O _ _ _ _ _).bind fun ys _ _ _ => .pure _ _

/-- whatever the outcome, a product adds one to the counter of the operator -/
theorem productC_own {h' : Heap K} {n : Nat} {f : Arr K → Act (Arr K)} {q : Nat} {o : Obj K} (ho : h'[q]? = some o) (hq : n ≤ q)
    {x : Arr K} (hf : ActBelow n (f x)) (c : Cnt) : (productC h' f q x c).2[q]? = c[q]?.map (· + 1) := by
  have key : ActBelow n (if x.data.length ≠ o.nargin then Act.raise .valueError else do
      let y ← f x
      if y.data.length ≠ o.nargout then Act.raise .valueError else Act.pure (y.astype (o.dtype.join x.kind))) := by
    split
    · exact .raise _ _
    · refine hf.bind fun y _ _ _ => ?_
      split
      · exact .raise _ _
      · exact .pure _ _
  simp only [productC, ho]
  rw [bind_ok (show bump q c = (.ok (), c.modify q (· + 1)) from rfl), (key _).2 q hq, bump_adds q c q]
  simp [one]

/-! ### The lists of blocks are rectangular -/

theorem mapM_mem {α β : Type} {f : α → Except Err β} : ∀ {l : List α} {l' : List β}, l.mapM f = .ok l' →
    (∀ a ∈ l, ∃ b, f a = .ok b) ∧ ∀ b ∈ l', ∃ a ∈ l, f a = .ok b
  | [], l', h => by rw [List.mapM_nil] at h; cases h; simp
  | a :: l, l', h => by
    rw [List.mapM_cons] at h
    replace h := ebind_ok h; obtain ⟨b, h1, h⟩ := h
    replace h := ebind_ok h; obtain ⟨bs, h2, h⟩ := h
    cases h
    obtain ⟨i1, i2⟩ := mapM_mem h2
    refine ⟨fun x hx => ?_, fun x hx => ?_⟩
    · rcases List.mem_cons.1 hx with rfl | hx
      · exact ⟨b, h1⟩
      · exact i1 x hx
    · rcases List.mem_cons.1 hx with rfl | hx
      · exact ⟨a, by simp, h1⟩
      · obtain ⟨y, hy, e⟩ := i2 x hx
        exact ⟨y, by simp [hy], e⟩

/-- all rows have the same number of entries -/
def Rect (G : Grid) : Prop := ∃ n, ∀ row ∈ G, row.length = n

theorem transposeGrid_rect {attr : Nat → Option Nat} {G G' : Grid} (h : transposeGrid attr G = .ok G') : Rect G ∧ Rect G' := by
  have h' : (List.range ((G.map List.length).foldl max 0)).mapM (colAt attr G) = .ok G' := by
    cases G with
    | nil => cases h
    | cons _ _ => exact h
  obtain ⟨i1, i2⟩ := mapM_mem h'
  refine ⟨⟨_, fun row hrow => Nat.le_antisymm ((le_foldl_max (G.map List.length) 0).2 _ (List.mem_map_of_mem hrow)) ?_⟩,
    ⟨G.length, fun row hrow => ?_⟩⟩
  · by_contra hlt
    obtain ⟨b, hb⟩ := i1 row.length (List.mem_range.2 (Nat.lt_of_not_le hlt))
    obtain ⟨e, he⟩ := (mapM_mem hb).1 row hrow
    simp at he
  · obtain ⟨k, -, hk⟩ := i2 row hrow
    exact mapM_length hk

/-- all lists of blocks of an operator are rectangular -/
def BlkOp.Rect (b : BlkOp) : Prop := Blkop.Rect b.blocks ∧ Blkop.Rect b.blocksT ∧ Blkop.Rect b.blocksH

theorem BlkOp.Rect.grid {b : BlkOp} (h : b.Rect) (s : Sel) : Blkop.Rect (b.grid s) := by
  obtain ⟨h1, h2, h3⟩ := h
  cases s
  · exact h1
  · simp only [BlkOp.grid]; split <;> assumption
  · simp only [BlkOp.grid]; split <;> assumption

theorem mkBlock_rect {h : Heap K} {G G' : Grid} {sym herm : Bool} {b : BlkOp} (hb : mkBlock h G sym herm = .ok (b, G')) : b.Rect := by
  have key : ∀ F : Grid, (do
      let (nargin, nargout) ← checkShapes h F
      let bT ← transposeGrid (getT h) F
      let bH ← transposeGrid (getH h) F
      let op : BlkOp := ⟨nargin, nargout, sym, herm, gridKind h F, F, bT, bH⟩
      let (r, h') := op.objs h
      let b1 := if getT h' r = some r then bT else F
      let b2 := if getH h' r = some r then bH else b1
      .ok ({ op with blocks := b2 }, F)) = (.ok (b, G') : Except Err (BlkOp × Grid)) → b.Rect := by
    intro F hb
    replace hb := ebind_ok hb; obtain ⟨⟨n1, n2⟩, -, hb⟩ := hb
    simp only at hb
    replace hb := ebind_ok hb; obtain ⟨bT, h1, hb⟩ := hb
    replace hb := ebind_ok hb; obtain ⟨bH, h2, hb⟩ := hb
    obtain ⟨e1, e2⟩ := transposeGrid_rect h1
    obtain ⟨_, e3⟩ := transposeGrid_rect h2
    cases hb
    refine ⟨?_, e2, e3⟩
    dsimp only
    split
    · exact e3
    · split
      · exact e2
      · exact e1
  unfold mkBlock at hb
  dsimp only at hb
  split at hb
  · replace hb := ebind_ok hb; obtain ⟨r0, -, hb⟩ := hb
    split at hb
    · cases hb
    · replace hb := ebind_ok hb; obtain ⟨_, -, hb⟩ := hb
      replace hb := ebind_ok hb; obtain ⟨F, -, hb⟩ := hb
      exact key F hb
  · replace hb := ebind_ok hb; obtain ⟨F, -, hb⟩ := hb
    exact key F hb

theorem setAt_rect {G G' : Grid} {i j : Int} {v : Nat} (hr : Rect G) (h : setAt G i j v = .ok G') : Rect G' := by
  obtain ⟨n, hn⟩ := hr
  unfold setAt at h
  split at h
  · cases h
  · split at h
    · cases h
    · next row hrow =>
      split at h
      · cases h
      · cases h
        refine ⟨n, fun r hr => ?_⟩
        rcases List.mem_or_eq_of_mem_set hr with h1 | rfl
        · exact hn r h1
        · simpa using hn row (List.mem_of_getElem? hrow)

theorem mirrorAll_rect {attr : Nat → Option Nat} {G G' : Grid} (hr : Rect G) (h : mirrorAll attr G = .ok G') : Rect G' := by
  unfold mirrorAll at h
  generalize ((List.range G.length).flatMap fun i => (List.range i).map fun j => (i, j)) = l at h
  induction l generalizing G with
  | nil => cases h; exact hr
  | cons p l ih =>
    rw [List.foldlM_cons] at h
    replace h := ebind_ok h; obtain ⟨F, h1, h⟩ := h
    refine ih ?_ h
    obtain ⟨n, hn⟩ := hr
    unfold mirrorAt at h1
    split at h1
    · cases h1
    · cases h1
    · cases h1
      refine ⟨n, fun row hrow => ?_⟩
      obtain ⟨k, hk, rfl⟩ := List.mem_iff_getElem.1 hrow
      rw [List.getElem_modify]
      split
      · rw [List.length_set]; exact hn _ (List.getElem_mem _)
      · exact hn _ (List.getElem_mem _)

theorem set_rect {h : Heap K} {b b' : BlkOp} {i j : Int} {v : Nat} (hr : b.Rect) (hs : b.set h i j v = .ok b') : b'.Rect := by
  obtain ⟨h1, h2, h3⟩ := hr
  unfold BlkOp.set at hs
  replace hs := ebind_ok hs; obtain ⟨G, h4, hs⟩ := hs
  split at hs
  · replace hs := ebind_ok hs; obtain ⟨F, h5, hs⟩ := hs
    cases hs
    exact ⟨mirrorAll_rect (setAt_rect h1 h4) h5, h2, h3⟩
  · replace hs := ebind_ok hs; obtain ⟨bT, h5, hs⟩ := hs
    replace hs := ebind_ok hs; obtain ⟨bH, h6, hs⟩ := hs
    cases hs
    exact ⟨setAt_rect h1 h4, (transposeGrid_rect h5).2, (transposeGrid_rect h6).2⟩

end Verif.Blkop
