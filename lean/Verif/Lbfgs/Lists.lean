import Verif.Lbfgs.Rep
import Mathlib.Data.List.Nodup
import Mathlib.Data.List.GetD

/-!
# The products as functions of the list of remembered pairs
-/

namespace Verif.Lbfgs
open Verif.Solver Scalar Vect

variable {S V : Type} [Scalar S] [Vect S V]

/-! ### folds over `range` that skip a part -/

theorem foldl_range_skip {α : Type} (f : α → Nat → α) (m d : Nat) (h : ∀ a i, m ≤ i → i < m + d → f a i = a) (a : α) :
    (List.range (m + d)).foldl f a = (List.range m).foldl f a := by
  induction d with
  | zero => rfl
  | succ d ih =>
    rw [Nat.add_succ, List.range_succ, List.foldl_append, ih (fun a i h1 h2 => h a i h1 (by omega))]
    exact h _ _ (by omega) (by omega)

theorem foldl_range_front {α : Type} (f : α → Nat → α) (d m : Nat) (h : ∀ a i, i < d → f a i = a) (a : α) :
    (List.range (d + m)).foldl f a = (List.range m).foldl (fun a j => f a (d + j)) a := by
  induction m with
  | zero =>
    have := foldl_range_skip f 0 d (fun a i _ h2 => h a i (by omega)) a
    rw [Nat.zero_add] at this
    exact this
  | succ m ih => rw [Nat.add_succ, List.range_succ, List.foldl_append, ih, List.range_succ, List.foldl_append]; rfl

theorem foldl_congr_range {α : Type} (f g : α → Nat → α) (m : Nat) (h : ∀ a i, i < m → f a i = g a i) (a : α) :
    (List.range m).foldl f a = (List.range m).foldl g a := by
  induction m with
  | zero => rfl
  | succ m ih =>
    rw [List.range_succ, List.foldl_append, List.foldl_append, ih (fun a i hi => h a i (by omega))]
    exact h _ _ (by omega)

/-! ### slots of a represented state -/

/-- slot of the `j`-th newest pair -/
def LB.kk (st : LB S V) (j : Nat) : Nat := st.idx ((st.insert : Int) - 1 - j)

theorem Rep.pos {st : LB S V} {L} (h : Rep st L) : 0 < st.npairs := Nat.lt_of_le_of_lt (Nat.zero_le _) h.insert_lt

theorem Rep.kk_inj {st : LB S V} {L} (h : Rep st L) {i j : Nat} (hi : i < st.npairs) (hj : j < st.npairs)
    (e : st.kk i = st.kk j) : i = j := by
  have := idx_inj st h.pos e (by rw [abs_lt]; omega)
  omega

theorem Rep.ys_none {st : LB S V} {L} (h : Rep st L) {j : Nat} (h1 : L.length ≤ j) (h2 : j < st.npairs) :
    st.ys (st.kk j) = none := by
  have := h.slots j h2
  rw [List.getElem?_eq_none h1] at this
  simpa [LB.slot, LB.kk] using this

theorem Rep.slot_some {st : LB S V} {L} (h : Rep st L) {j : Nat} (h1 : j < L.length) :
    st.slot (st.kk j) = some L[j] := by
  have := h.slots j (lt_of_lt_of_le h1 h.len)
  rw [List.getElem?_eq_getElem h1] at this
  exact this

theorem slot_data {st : LB S V} {k : Nat} {p : V × V × S} (h : st.slot k = some p) :
    st.ys k = some p.2.2 ∧ st.s k = p.1 ∧ st.y k = p.2.1 := by
  unfold LB.slot at h
  cases hy : st.ys k with
  | none => rw [hy] at h; cases h
  | some t => rw [hy] at h; cases h; exact ⟨rfl, rfl, rfl⟩

/-- going through the buffer from `insert` on visits the `n - 1 - i`-th newest pair at step `i` -/
theorem idx_forward (st : LB S V) (hn : 0 < st.npairs) {i : Nat} (hi : i < st.npairs) :
    st.idx ((st.insert : Int) + i) = st.kk (st.npairs - 1 - i) := by
  unfold LB.kk
  rw [← idx_sub st hn]
  congr 1; omega

/-- slot of the `j`-th oldest of `m` pairs -/
theorem idx_old (st : LB S V) {m j : Nat} (hj : j < m) : st.idx ((st.insert : Int) - m + j) = st.kk (m - 1 - j) := by
  unfold LB.kk
  congr 1; omega

/-! ### inverse product -/

/-- the two-loop recursion, as a recursion over the pairs, newest first -/
def twoLoop (f : V → V) : List (V × V × S) → V → V
  | [], q => f q
  | p :: L, q =>
    let a := dot p.1 q / p.2.2
    let r := twoLoop f L (q - smul a p.2.1)
    r + smul (a - dot p.2.1 r / p.2.2) p.1

theorem step1_alpha (st : LB S V) : ∀ (ks : List Nat) (p : V × (Nat → S)) (k : Nat), k ∉ ks →
    (ks.foldl (invStep1 st) p).2 k = p.2 k
  | [], _, _, _ => rfl
  | k' :: ks, p, k, h => by
    rw [List.foldl_cons, step1_alpha st ks _ k (fun hk => h (List.mem_cons_of_mem _ hk))]
    unfold invStep1
    have hne : k ≠ k' := fun e => h (by rw [e]; exact List.mem_cons_self)
    cases st.ys k' with
    | none => rfl
    | some t => simp only [Function.update_of_ne hne]

theorem twoLoop_spec (st : LB S V) (f : V → V) : ∀ (ks : List Nat) (L : List (V × V × S)), ks.Nodup →
    ks.map st.slot = L.map some → ∀ (q : V) (alpha alpha' : Nat → S),
    (∀ k ∈ ks, alpha' k = (ks.foldl (invStep1 st) (q, alpha)).2 k) →
    ks.reverse.foldl (invStep2 st alpha') (f (ks.foldl (invStep1 st) (q, alpha)).1) = twoLoop f L q
  | [], [], _, _, _, _, _, _ => rfl
  | [], _ :: _, _, h, _, _, _, _ => by cases h
  | _ :: _, [], _, h, _, _, _, _ => by cases h
  | k :: ks, p :: L, hnd, h, q, alpha, alpha', ha => by
    rw [List.map_cons, List.map_cons] at h
    obtain ⟨h1, h2⟩ := List.cons.inj h
    obtain ⟨e1, e2, e3⟩ := slot_data h1
    have hk : k ∉ ks := (List.nodup_cons.1 hnd).1
    have hstep : invStep1 st (q, alpha) k = (q - smul (dot p.1 q / p.2.2) p.2.1, Function.update alpha k (dot p.1 q / p.2.2)) := by
      unfold invStep1
      simp only [e1, e2, e3, Function.update_self]
    simp only [List.foldl_cons, hstep] at ha ⊢
    rw [List.reverse_cons, List.foldl_append, twoLoop_spec st f ks L (List.nodup_cons.1 hnd).2 h2 _ _ alpha'
      (fun k' hk' => ha k' (List.mem_cons_of_mem _ hk'))]
    have hak : alpha' k = dot p.1 q / p.2.2 := by
      rw [ha k List.mem_cons_self, step1_alpha st ks _ k hk]
      simp only [Function.update_self]
    simp only [List.foldl_cons, List.foldl_nil, invStep2, e1, e2, e3, hak, twoLoop]

/-- the new value of `gamma`: `y's / y'y` for the newest pair -/
def newGamma (p : V × V × S) : S := p.2.2 / dot p.2.1 p.2.1

/-- `gamma` after a product with scaling -/
def gammaOf (g : S) : List (V × V × S) → S
  | [] => g
  | p :: _ => newGamma p

/-- scaling of the vector in the inverse and compact products -/
def scaleBy (scaling : Bool) (f : S → V → V) : List (V × V × S) → V → V
  | [], r => r
  | p :: _, r => if scaling then f (newGamma p) r else r

theorem slots_indep (st st' : LB S V) (h : st'.s = st.s ∧ st'.y = st.y ∧ st'.ys = st.ys) (k : Nat) : st'.slot k = st.slot k := by
  unfold LB.slot; rw [h.1, h.2.1, h.2.2]

theorem Rep.updateGamma {st : LB S V} {L} (h : Rep st L) (f : S → V → V) (r : V) :
    (st.updateGamma f r).1 = scaleBy st.scaling f L r ∧
    (st.updateGamma f r).2.gamma = (if st.scaling then gammaOf st.gamma L else st.gamma) := by
  unfold LB.updateGamma
  have e : st.idx ((st.insert : Int) - 1) = st.kk 0 := by unfold LB.kk; congr 1; omega
  by_cases hs : st.scaling = true
  · simp only [hs, if_true, e]
    cases L with
    | nil => rw [h.ys_none (Nat.zero_le _) h.pos]; exact ⟨rfl, rfl⟩
    | cons p L =>
      obtain ⟨e1, e2, e3⟩ := slot_data (h.slot_some (j := 0) (by simp))
      simp only [List.getElem_cons_zero] at e1 e2 e3
      rw [e1, e3]; exact ⟨by simp [scaleBy, newGamma], rfl⟩
  · have hs' : st.scaling = false := by simpa using hs
    rw [hs']
    cases L <;> exact ⟨rfl, rfl⟩

theorem Rep.ks_slots {st : LB S V} {L} (h : Rep st L) : ((List.range L.length).map st.kk).map st.slot = L.map some := by
  apply List.ext_getElem
  · simp
  · intro i h1 h2
    simp only [List.length_map, List.length_range] at h1
    simp only [List.getElem_map, List.getElem_range]
    exact h.slot_some h1

theorem Rep.ks_nodup {st : LB S V} {L} (h : Rep st L) : ((List.range L.length).map st.kk).Nodup := by
  refine (List.nodup_map_iff_inj_on List.nodup_range).2 ?_
  intro i hi j hj e
  rw [List.mem_range] at hi hj
  exact h.kk_inj (lt_of_lt_of_le hi h.len) (lt_of_lt_of_le hj h.len) e

theorem reverse_range_map {α : Type} (f : Nat → α) (m : Nat) :
    ((List.range m).map f).reverse = (List.range m).map fun j => f (m - 1 - j) := by
  apply List.ext_getElem
  · simp
  · intro i h1 h2
    simp at h1 ⊢

/-- The inverse product is the two-loop recursion over the represented list. -/
theorem Rep.invMatvec {st : LB S V} {L} (h : Rep st L) (v : V) :
    (st.invMatvec v).1 = twoLoop (scaleBy st.scaling (fun g q => smul g q) L) L v := by
  set ks := (List.range L.length).map st.kk with hks
  obtain ⟨d, hd⟩ := Nat.exists_eq_add_of_le h.len
  have f1 : ∀ p : V × (Nat → S),
      (List.range st.npairs).foldl (fun p (i : Nat) => invStep1 st p (st.idx ((st.insert : Int) - 1 - i))) p =
      ks.foldl (invStep1 st) p := by
    intro p
    rw [hd, foldl_range_skip _ _ _ (fun a i h1 h2 => ?_), hks, List.foldl_map]
    · rfl
    · have : st.ys (st.idx ((st.insert : Int) - 1 - i)) = none := h.ys_none h1 (by omega)
      unfold invStep1; rw [this]
  have f2 : ∀ (alpha : Nat → S) (r : V),
      (List.range st.npairs).foldl (fun r (i : Nat) => invStep2 st alpha r (st.idx ((st.insert : Int) + i))) r =
      ks.reverse.foldl (invStep2 st alpha) r := by
    intro alpha r
    rw [hks, reverse_range_map, List.foldl_map]
    have hd' : st.npairs = d + L.length := by omega
    rw [hd', foldl_range_front _ _ _ (fun a i hi => ?_)]
    · refine foldl_congr_range _ _ _ (fun a i hi => ?_) r
      rw [idx_forward st h.pos (by omega)]
      congr 2; omega
    · have : st.ys (st.idx ((st.insert : Int) + i)) = none := by
        rw [idx_forward st h.pos (by omega)]; exact h.ys_none (by omega) (by omega)
      unfold invStep2; rw [this]
  unfold LB.invMatvec
  simp only [f1]
  set p := ks.foldl (invStep1 st) (v, st.alpha) with hp
  have hR : Rep { st with alpha := p.2 } L := ⟨h.insert_lt, h.len, h.slots, h.gamma, h.thr⟩
  obtain ⟨g, e, -⟩ := updateGamma_state { st with alpha := p.2 } (fun gamma q => smul gamma q) p.1
  have e1 := (hR.updateGamma (fun gamma q => smul gamma q) p.1).1
  rw [e1, e]
  change (List.range st.npairs).foldl (fun r (i : Nat) => invStep2 st p.2 r (st.idx ((st.insert : Int) + i))) _ = _
  rw [f2]
  exact twoLoop_spec st _ ks L h.ks_nodup h.ks_slots v st.alpha p.2 (fun k _ => by rw [hp])

/-! ### pairs by number, oldest first -/

/-- `s`-vector number `i` of a list of pairs -/
def sAt (l : List (V × V × S)) (i : Nat) : V := (l.getD i (zeros, zeros, lit 0)).1
/-- `y`-vector number `i` -/
def yAt (l : List (V × V × S)) (i : Nat) : V := (l.getD i (zeros, zeros, lit 0)).2.1
/-- inner product number `i` -/
def tAt (l : List (V × V × S)) (i : Nat) : S := (l.getD i (zeros, zeros, lit 0)).2.2

/-- slot of the `j`-th oldest pair -/
def LB.oo (st : LB S V) (m j : Nat) : Nat := st.kk (m - 1 - j)

theorem Rep.old {st : LB S V} {L} (h : Rep st L) {i : Nat} (hi : i < L.length) :
    st.ys (st.oo L.length i) = some (tAt L.reverse i) ∧ st.s (st.oo L.length i) = sAt L.reverse i ∧
    st.y (st.oo L.length i) = yAt L.reverse i := by
  have h0 : L.length - 1 - i < L.length := by omega
  obtain ⟨e1, e2, e3⟩ := slot_data (h.slot_some h0)
  have hg : L.reverse.getD i (zeros, zeros, lit 0) = L[L.length - 1 - i] := by
    rw [List.getD_eq_getElem _ _ (by simpa using hi), List.getElem_reverse]
  unfold sAt yAt tAt LB.oo
  rw [hg]
  exact ⟨e1, e2, e3⟩

theorem Rep.oo_inj {st : LB S V} {L} (h : Rep st L) {i j : Nat} (hi : i < L.length) (hj : j < L.length)
    (e : st.oo L.length i = st.oo L.length j) : i = j := by
  have := h.kk_inj (i := L.length - 1 - i) (j := L.length - 1 - j) (by have := h.len; omega) (by have := h.len; omega) e
  omega

/-- position of pair `j` (oldest first) when the buffer is scanned from `insert` -/
theorem Rep.idx_oo {st : LB S V} {L} (h : Rep st L) {j : Nat} (hj : j < L.length) :
    st.idx ((st.insert : Int) + ((st.npairs - L.length + j : Nat) : Int)) = st.oo L.length j := by
  have := h.len
  rw [idx_forward st h.pos (by omega)]
  unfold LB.oo
  congr 1; omega

theorem Rep.ys_front {st : LB S V} {L} (h : Rep st L) {i : Nat} (hi : i < st.npairs - L.length) :
    st.ys (st.idx ((st.insert : Int) + i)) = none := by
  rw [idx_forward st h.pos (by omega)]; exact h.ys_none (by omega) (by omega)

/-! ### forward product -/

/-- `B_j s` where `B_j` is given by the vectors computed so far -/
def fwdVec (acc : List (V × V)) (s : V) : V :=
  acc.foldl (fun x ab => (x + smul (S := S) (dot ab.2 s) ab.2) - smul (S := S) (dot ab.1 s) ab.1) s

/-- the vectors `a`, `b` for a pair -/
def fwdPair (acc : List (V × V)) (p : V × V × S) : V × V :=
  (vdiv (fwdVec (S := S) acc p.1) (sqrt (dot p.1 (fwdVec (S := S) acc p.1) : S)), vdiv p.2.1 (sqrt p.2.2))

/-- one pair processed -/
def fwdList (v : V) (q : V × List (V × V)) (p : V × V × S) : V × List (V × V) :=
  let ab := fwdPair q.2 p
  ((q.1 + smul (S := S) (dot ab.2 v) ab.2) - smul (S := S) (dot ab.1 v) ab.1, q.2 ++ [ab])

theorem fwd_inner (st : LB S V) {L} (h : Rep st L) {k : Nat} (hk : k < L.length) (b : Nat → V) (acc : List (V × V))
    (hacc : acc.length = k) (hb : ∀ l (hl : l < acc.length), b (st.oo L.length l) = acc[l].2) :
    ∀ (j : Nat), j ≤ k → ∀ (a : Nat → V), a (st.oo L.length k) = sAt L.reverse k →
    (∀ l (hl : l < acc.length), a (st.oo L.length l) = acc[l].1) →
    (((List.range j).foldl (fun a j => fwdInner st (st.oo L.length k) b a (st.oo L.length j)) a) (st.oo L.length k) =
      fwdVec (S := S) (acc.take j) (sAt L.reverse k)) ∧
    (∀ l, l ≠ st.oo L.length k →
      ((List.range j).foldl (fun a j => fwdInner st (st.oo L.length k) b a (st.oo L.length j)) a) l = a l) := by
  intro j
  induction j with
  | zero => intro _ a ha _; exact ⟨ha, fun _ _ => rfl⟩
  | succ j ih =>
    intro hj a ha haa
    obtain ⟨i1, i2⟩ := ih (by omega) a ha haa
    rw [List.range_succ, List.foldl_append]
    set a' := (List.range j).foldl (fun a j => fwdInner st (st.oo L.length k) b a (st.oo L.length j)) a
    have hjm : j < L.length := by omega
    obtain ⟨e1, -, -⟩ := h.old hjm
    obtain ⟨-, e2, -⟩ := h.old hk
    have hne : st.oo L.length j ≠ st.oo L.length k := fun e => by have := h.oo_inj hjm hk e; omega
    have hja : j < acc.length := by omega
    simp only [List.foldl_cons, List.foldl_nil, fwdInner, e1, e2]
    constructor
    · rw [Function.update_self, Function.update_self, Function.update_of_ne hne, i1, i2 _ hne, haa j hja, hb j hja]
      rw [List.take_succ_eq_append_getElem hja]
      simp only [fwdVec, List.foldl_append, List.foldl_cons, List.foldl_nil]
    · intro l hl
      rw [Function.update_of_ne hl, Function.update_of_ne hl, i2 l hl]

theorem take_succ_foldl {α β : Type} (f : α → β → α) (l : List β) (a : α) (j : Nat) (hj : j < l.length) :
    (l.take (j + 1)).foldl f a = f ((l.take j).foldl f a) l[j] := by
  rw [List.take_succ_eq_append_getElem hj, List.foldl_append]; rfl

theorem at_getElem (l : List (V × V × S)) {j : Nat} (hj : j < l.length) : (sAt l j, yAt l j, tAt l j) = l[j] := by
  unfold sAt yAt tAt
  rw [List.getD_eq_getElem _ _ hj]

/-- The forward product is a fold over the represented list, oldest pair first. -/
theorem Rep.fwdMatvec {st : LB S V} {L} (h : Rep st L) (v : V) :
    st.fwdMatvec v = (L.reverse.foldl (fwdList v) (v, [])).1 := by
  unfold LB.fwdMatvec
  set d := st.npairs - L.length with hd
  have hn : st.npairs = d + L.length := by have := h.len; omega
  rw [hn, foldl_range_front _ _ _ (fun a i hi => by unfold fwdStep; simp only; rw [h.ys_front hi])]
  have hlen : L.reverse.length = L.length := List.length_reverse
  have key : ∀ j, j ≤ L.length →
      let f := (List.range j).foldl (fun a j => fwdStep st v a (d + j)) { q := v, a := fun _ => zeros, b := fun _ => zeros }
      let g := (L.reverse.take j).foldl (fwdList v) (v, [])
      f.q = g.1 ∧ g.2.length = j ∧ (∀ l (hl : l < g.2.length), f.a (st.oo L.length l) = g.2[l].1 ∧ f.b (st.oo L.length l) = g.2[l].2) := by
    intro j
    induction j with
    | zero => intro _; exact ⟨rfl, rfl, fun l hl => by simp at hl⟩
    | succ j ih =>
      intro hj
      obtain ⟨i1, i2, i3⟩ := ih (by omega)
      intro f g
      set f' := (List.range j).foldl (fun a j => fwdStep st v a (d + j)) { q := v, a := fun _ => zeros, b := fun _ => zeros } with hf'
      set g' := (L.reverse.take j).foldl (fwdList v) (v, []) with hg'
      have hjm : j < L.length := by omega
      obtain ⟨e1, e2, e3⟩ := h.old hjm
      have hgstep : g = fwdList v g' (sAt L.reverse j, yAt L.reverse j, tAt L.reverse j) := by
        rw [at_getElem _ (by omega)]
        exact take_succ_foldl _ _ _ _ (by omega)
      have hfstep : f = fwdStep st v f' (d + j) := by
        simp only [f, List.range_succ, List.foldl_append, List.foldl_cons, List.foldl_nil, hf']
      set b := Function.update f'.b (st.oo L.length j) (vdiv (yAt L.reverse j) (sqrt (tAt L.reverse j))) with hb
      set a0 := Function.update f'.a (st.oo L.length j) (sAt L.reverse j) with ha0
      have hne : ∀ l, l < g'.2.length → st.oo L.length l ≠ st.oo L.length j := fun l hl e => by
        have := h.oo_inj (by omega) hjm e; omega
      obtain ⟨k1, k2⟩ := fwd_inner st h hjm b g'.2 i2
        (fun l hl => by rw [hb, Function.update_of_ne (hne l hl)]; exact (i3 l hl).2) j le_rfl a0
        (by rw [ha0, Function.update_self]) (fun l hl => by rw [ha0, Function.update_of_ne (hne l hl)]; exact (i3 l hl).1)
      rw [List.take_of_length_le (by omega)] at k1
      have hin : (List.range (d + j)).foldl (fun a (j' : Nat) => fwdInner st (st.oo L.length j) b a (st.idx ((st.insert : Int) + j'))) a0 =
          (List.range j).foldl (fun a j' => fwdInner st (st.oo L.length j) b a (st.oo L.length j')) a0 := by
        rw [foldl_range_front _ _ _ (fun a i hi => by unfold fwdInner; rw [h.ys_front hi])]
        refine foldl_congr_range _ _ _ (fun a i hi => ?_) a0
        rw [← h.idx_oo (j := i) (by omega)]
      set a1 := (List.range j).foldl (fun a j' => fwdInner st (st.oo L.length j) b a (st.oo L.length j')) a0 with ha1
      set ab := fwdPair g'.2 (sAt L.reverse j, yAt L.reverse j, tAt L.reverse j) with hab
      have hbk : b (st.oo L.length j) = ab.2 := by rw [hb, Function.update_self]; rfl
      have hak : vdiv (a1 (st.oo L.length j)) (sqrt (dot (sAt L.reverse j) (a1 (st.oo L.length j)) : S)) = ab.1 := by
        rw [k1]; rfl
      have hfull : f = { q := (f'.q + smul (S := S) (dot ab.2 v) ab.2) - smul (S := S) (dot ab.1 v) ab.1,
                         a := Function.update a1 (st.oo L.length j) ab.1, b := b } := by
        rw [hfstep]
        unfold fwdStep
        have hidx : st.idx ((st.insert : Int) + ((d + j : Nat) : Int)) = st.oo L.length j := h.idx_oo hjm
        simp only [hidx, e1]
        simp only [e2, e3, ← hb, ← ha0, hin, hak, Function.update_self]
        rfl
      rw [hfull, hgstep]
      refine ⟨?_, ?_, ?_⟩
      · simp only [fwdList, ← hab, i1]
      · simp only [fwdList, List.length_append, i2, List.length_cons, List.length_nil]
      · intro l hl
        simp only [fwdList, ← hab, List.length_append, List.length_cons, List.length_nil, i2] at hl ⊢
        by_cases hlj : l = j
        · subst hlj
          rw [Function.update_self, hbk]
          rw [List.getElem_append_right (by omega)]
          simp [i2]
        · have hl' : l < g'.2.length := by omega
          rw [Function.update_of_ne (hne l hl'), k2 _ (hne l hl'), ha0, hb, Function.update_of_ne (hne l hl'),
            Function.update_of_ne (hne l hl'), List.getElem_append_left hl']
          exact i3 l hl'
  have := (key L.length le_rfl).1
  rw [List.take_of_length_le (by omega)] at this
  exact this

end Verif.Lbfgs
