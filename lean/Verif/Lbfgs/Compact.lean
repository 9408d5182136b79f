import Verif.Lbfgs.Lists

/-!
# The compact product as a function of the list of remembered pairs
-/

namespace Verif.Lbfgs
open Verif.Solver Scalar Vect

variable {S V : Type} [Scalar S] [Vect S V]

/-- right-hand side of the small system, pairs `l` oldest first -/
def cRhs (l : List (V × V × S)) (r q : V) (i : Nat) : S :=
  if i < l.length then dot r (sAt l i) else if i < 2 * l.length then dot q (yAt l (i - l.length)) else lit 0

/-- entry of the symmetric small matrix on or below the diagonal of its top left block, `i`-th and `j`-th pair, `j ≤ i` -/
def cX (l : List (V × V × S)) (gamma : S) (i j : Nat) : S := dot (sAt l i) (sAt l j) / gamma
/-- entry of the strictly lower triangular block, `j < i` -/
def cZ (l : List (V × V × S)) (i j : Nat) : S := dot (sAt l i) (yAt l j)

/-- the small matrix -/
def cMat (l : List (V × V × S)) (gamma : S) (i j : Nat) : S :=
  let m := l.length
  if i < m then
    if j < m then (if j ≤ i then cX l gamma i j else cX l gamma j i)
    else if j < 2 * m then (if j - m < i then cZ l i (j - m) else lit 0)
    else lit 0
  else if i < 2 * m then
    if j < m then (if i - m < j then cZ l j (i - m) else lit 0)
    else if j = i then -(tAt l (i - m)) else lit 0
  else lit 0

/-- number of the pair an index of the small system belongs to -/
def pn (m i : Nat) : Nat := if i < m then i else i - m

/-- the entries set after `k` pairs, and `x` entries of the next row -/
def cPart (l : List (V × V × S)) (gamma : S) (k : Nat) (row : Bool) (x : Nat) (i j : Nat) : S :=
  if (pn l.length i < k ∧ pn l.length j < k) ∨
     (row = true ∧ ((pn l.length i = k ∧ (pn l.length j < x ∨ pn l.length j = k)) ∨
                    (pn l.length j = k ∧ (pn l.length i < x ∨ pn l.length i = k)))) then cMat l gamma i j else lit 0

theorem mset_apply (m : Nat → Nat → S) (i j : Nat) (x : S) (i' j' : Nat) :
    mset m i j x i' j' = if i' = i ∧ j' = j then x else m i' j' := by
  unfold mset
  by_cases h : i' = i
  · subst h
    rw [Function.update_self]
    by_cases hj : j' = j
    · subst hj; simp
    · rw [Function.update_of_ne hj]; simp [hj]
  · rw [Function.update_of_ne h]; simp [h]

theorem cPart_diag (l : List (V × V × S)) (gamma : S) {k : Nat} (hk : k < l.length) :
    mset (mset (cPart l gamma k false 0) (l.length + k) (l.length + k) (-(tAt l k))) k k (cX l gamma k k) =
      cPart l gamma k true 0 := by
  funext i j
  rw [mset_apply, mset_apply]
  by_cases h1 : i = k ∧ j = k
  · obtain ⟨rfl, rfl⟩ := h1
    simp only [and_self, if_true, cPart, cMat, pn, hk, le_refl]
    simp
  · rw [if_neg h1]
    by_cases h2 : i = l.length + k ∧ j = l.length + k
    · obtain ⟨rfl, rfl⟩ := h2
      have a1 : ¬ l.length + k < l.length := by omega
      have a2 : l.length + k < 2 * l.length := by omega
      simp only [and_self, if_true, cPart, cMat, pn, a1, a2, if_false, Nat.add_sub_cancel_left]
      simp
    · rw [if_neg h2]
      unfold cPart
      simp only [Bool.false_eq_true, false_and, or_false, Nat.not_lt_zero, false_or, true_and]
      by_cases h3 : pn l.length i < k ∧ pn l.length j < k
      · rw [if_pos h3, if_pos (Or.inl h3)]
      · rw [if_neg h3]
        by_cases h4 : pn l.length i = k ∧ pn l.length j = k
        · rw [if_pos (Or.inr (Or.inl h4))]
          unfold pn at h4
          unfold cMat
          simp only
          split_ifs at h4 ⊢ <;> first | rfl | (exfalso; omega)
        · rw [if_neg]
          rintro (h5 | h5 | h5)
          · exact h3 h5
          · exact h4 h5
          · exact h4 ⟨h5.2, h5.1⟩

theorem cPart_step (l : List (V × V × S)) (gamma : S) {k x : Nat} (hk : k < l.length) (hx : x < k) (M : Nat → Nat → S)
    (hM : M = cPart l gamma k true x) :
    (let m := mset M k (l.length + x) (cZ l k x)
     let m := mset m (l.length + x) k (m k (l.length + x))
     let m := mset m k x (cX l gamma k x)
     mset m x k (m k x)) = cPart l gamma k true (x + 1) := by
  subst hM
  funext i j
  simp only [mset_apply, and_self, if_true]
  by_cases h1 : i = x ∧ j = k
  · obtain ⟨rfl, rfl⟩ := h1
    have a1 : i < l.length := by omega
    have a2 : ¬ j ≤ i := by omega
    simp only [and_self, true_and, if_true, cPart, cMat, pn, hk, a1, a2, if_false]
    rw [if_pos (Or.inr (by omega))]
  rw [if_neg h1]
  by_cases h2 : i = k ∧ j = x
  · obtain ⟨rfl, rfl⟩ := h2
    have a1 : j < l.length := by omega
    have a2 : j ≤ i := by omega
    simp only [and_self, true_and, if_true, cPart, cMat, pn, hk, a1, a2]
    rw [if_pos (Or.inr (by omega))]
  rw [if_neg h2]
  by_cases h3 : i = l.length + x ∧ j = k
  · obtain ⟨rfl, rfl⟩ := h3
    have a1 : ¬ l.length + x < l.length := by omega
    have a2 : l.length + x < 2 * l.length := by omega
    have a3 : l.length + x - l.length < j := by omega
    have a4 : l.length + x - l.length = x := by omega
    simp only [and_self, true_and, if_true, cPart, cMat, pn, hk, a1, a2, a3, if_false, a4]
    rw [if_pos (Or.inr (by omega)), if_pos hx]
  rw [if_neg h3]
  by_cases h4 : i = k ∧ j = l.length + x
  · obtain ⟨rfl, rfl⟩ := h4
    have a1 : ¬ l.length + x < l.length := by omega
    have a2 : l.length + x < 2 * l.length := by omega
    have a4 : l.length + x - l.length = x := by omega
    simp only [and_self, true_and, if_true, cPart, cMat, pn, hk, a1, a2, if_false, a4]
    rw [if_pos (Or.inr (by omega)), if_pos hx]
  rw [if_neg h4]
  unfold cPart
  simp only [true_and]
  by_cases h5 : (pn l.length i < k ∧ pn l.length j < k) ∨
     (((pn l.length i = k ∧ (pn l.length j < x ∨ pn l.length j = k)) ∨
                    (pn l.length j = k ∧ (pn l.length i < x ∨ pn l.length i = k))))
  · rw [if_pos h5, if_pos (by omega)]
  · rw [if_neg h5]
    by_cases h6 : (pn l.length i = k ∧ pn l.length j = x) ∨ (pn l.length j = k ∧ pn l.length i = x)
    · rw [if_pos (by omega)]
      unfold pn at h6
      unfold cMat
      simp only
      split_ifs at h6 ⊢ <;> first | rfl | (exfalso; omega)
    · rw [if_neg (by omega)]

theorem cmp_inner (st : LB S V) {L} (h : Rep st L) (gamma : S) {k : Nat} (hk : k < L.length) :
    ∀ x, x ≤ k →
    (List.range x).foldl (fun p j => cmpInner st gamma L.length (st.oo L.length k) k p (st.npairs - L.length + j))
        (cPart L.reverse gamma k true 0, 0) = (cPart L.reverse gamma k true x, x) := by
  intro x
  induction x with
  | zero => intro _; rfl
  | succ x ih =>
    intro hx
    rw [List.range_succ, List.foldl_append, ih (by omega)]
    simp only [List.foldl_cons, List.foldl_nil]
    have hxm : x < L.length := by omega
    have hlen : L.reverse.length = L.length := List.length_reverse
    obtain ⟨e1, e2, e3⟩ := h.old hxm
    obtain ⟨-, f2, -⟩ := h.old hk
    have := cPart_step L.reverse gamma (by rw [hlen]; exact hk) (show x < k by omega) _ rfl
    unfold cmpInner
    simp only [h.idx_oo hxm, e1, e2, e3, f2]
    rw [hlen] at this
    refine Prod.ext ?_ rfl
    exact this

theorem Rep.cmp1 {st : LB S V} {L} (h : Rep st L) (r : V) :
    ((List.range st.npairs).foldl (cmpStep1 st r) (fun _ => lit 0, 0)).2 = L.length ∧
    ∀ q : V, ((List.range st.npairs).foldl (cmpStep2 st q L.length)
      (((List.range st.npairs).foldl (cmpStep1 st r) (fun _ => lit 0, 0)).1, 0)).1 = cRhs L.reverse r q := by
  have hlen : L.reverse.length = L.length := List.length_reverse
  set d := st.npairs - L.length with hd
  have hn : st.npairs = d + L.length := by have := h.len; omega
  have k1 : ∀ j, j ≤ L.length → (List.range j).foldl (fun a i => cmpStep1 st r a (d + i)) (fun _ => lit 0, 0) =
      ((fun i => if i < j then dot r (sAt L.reverse i) else lit 0 : Nat → S), j) := by
    intro j
    induction j with
    | zero => intro _; simp
    | succ j ih =>
      intro hj
      rw [List.range_succ, List.foldl_append, ih (by omega)]
      obtain ⟨e1, e2, -⟩ := h.old (show j < L.length by omega)
      have hidx : st.idx ((st.insert : Int) + ((d + j : Nat) : Int)) = st.oo L.length j := h.idx_oo (by omega)
      simp only [List.foldl_cons, List.foldl_nil, cmpStep1, hidx, e1, e2]
      refine Prod.ext (funext fun i => ?_) rfl
      dsimp only
      by_cases hij : i = j
      · subst hij; simp
      · rw [Function.update_of_ne hij]
        have : i < j + 1 ↔ i < j := by omega
        simp only [this]
  have k2 : ∀ (q : V) j, j ≤ L.length → (List.range j).foldl (fun a i => cmpStep2 st q L.length a (d + i))
      ((fun i => if i < L.length then dot r (sAt L.reverse i) else lit 0 : Nat → S), 0) =
      ((fun i => if i < L.length then dot r (sAt L.reverse i) else if i < L.length + j then dot q (yAt L.reverse (i - L.length))
        else lit 0 : Nat → S), j) := by
    intro q j
    induction j with
    | zero =>
      intro _
      refine Prod.ext (funext fun i => ?_) rfl
      simp only [List.range_zero, List.foldl_nil, Nat.add_zero]
      split_ifs <;> rfl
    | succ j ih =>
      intro hj
      rw [List.range_succ, List.foldl_append, ih (by omega)]
      obtain ⟨e1, -, e3⟩ := h.old (show j < L.length by omega)
      have hidx : st.idx ((st.insert : Int) + ((d + j : Nat) : Int)) = st.oo L.length j := h.idx_oo (by omega)
      simp only [List.foldl_cons, List.foldl_nil, cmpStep2, hidx, e1, e3]
      refine Prod.ext (funext fun i => ?_) rfl
      dsimp only
      by_cases hij : i = L.length + j
      · subst hij
        rw [Function.update_self, if_neg (by omega), if_pos (by omega), Nat.add_sub_cancel_left]
      · rw [Function.update_of_ne hij]
        have : i < L.length + (j + 1) ↔ i < L.length + j := by omega
        simp only [this]
  have f1 : (List.range st.npairs).foldl (cmpStep1 st r) (fun _ => lit 0, 0) =
      ((fun i => if i < L.length then dot r (sAt L.reverse i) else lit 0 : Nat → S), L.length) := by
    rw [hn, foldl_range_front _ _ _ (fun a i hi => by unfold cmpStep1; simp only; rw [h.ys_front hi]), k1 _ le_rfl]
  rw [f1]
  refine ⟨rfl, fun q => ?_⟩
  rw [hn, foldl_range_front _ _ _ (fun a i hi => by unfold cmpStep2; simp only; rw [h.ys_front hi]), k2 _ _ le_rfl]
  funext i
  unfold cRhs
  rw [hlen, two_mul]

theorem Rep.cmp3 {st : LB S V} {L} (h : Rep st L) (gamma : S) :
    ((List.range st.npairs).foldl (cmpStep3 st gamma L.length) (fun _ _ => lit 0, 0)).1 = cMat L.reverse gamma := by
  have hlen : L.reverse.length = L.length := List.length_reverse
  set d := st.npairs - L.length with hd
  have hn : st.npairs = d + L.length := by have := h.len; omega
  have k1 : ∀ j, j ≤ L.length → (List.range j).foldl (fun a i => cmpStep3 st gamma L.length a (d + i)) (fun _ _ => lit 0, 0) =
      (cPart L.reverse gamma j false 0, j) := by
    intro j
    induction j with
    | zero => intro _; refine Prod.ext (funext fun i => funext fun j => ?_) rfl; simp [cPart]
    | succ j ih =>
      intro hj
      have hjm : j < L.length := by omega
      rw [List.range_succ, List.foldl_append, ih (by omega)]
      obtain ⟨e1, e2, -⟩ := h.old hjm
      have hidx : st.idx ((st.insert : Int) + ((d + j : Nat) : Int)) = st.oo L.length j := h.idx_oo (by omega)
      have hdiag := cPart_diag L.reverse gamma (by rw [hlen]; exact hjm)
      rw [hlen] at hdiag
      unfold cX at hdiag
      simp only [List.foldl_cons, List.foldl_nil, cmpStep3, hidx, e1, e2, hdiag]
      rw [foldl_range_front _ _ _ (fun a i hi => by unfold cmpInner; simp only; rw [h.ys_front hi]),
        cmp_inner st h gamma hjm j le_rfl]
      refine Prod.ext (funext fun i => funext fun i' => ?_) rfl
      simp only [cPart, true_and, Bool.false_eq_true, false_and, or_false]
      congr 1
      rw [eq_iff_iff]
      omega
  rw [hn, foldl_range_front _ _ _ (fun a i hi => by unfold cmpStep3; simp only; rw [h.ys_front hi]), k1 _ le_rfl]
  funext i j
  unfold cPart
  simp only [Bool.false_eq_true, false_and, or_false]
  split
  · rfl
  · rename_i hne
    unfold cMat
    unfold pn at hne
    simp only [hlen] at hne ⊢
    split_ifs at hne ⊢ <;> first | rfl | (exfalso; omega)

/-- final combination -/
def cOut (l : List (V × V × S)) (gamma : S) (b : Nat → S) (r : V) : V :=
  (List.range l.length).foldl (fun r i => (r - smul (b i / gamma) (sAt l i)) - smul (b (i + l.length)) (yAt l i)) r

/-- the compact product as a function of the list, newest pair first -/
def compactList (solve : LinSolve S) (scaling : Bool) (L : List (V × V × S)) (v : V) : Option V :=
  let gamma := if scaling then gammaOf (lit 1) L else lit 1
  let r := scaleBy scaling (fun g q => vdiv q g) L v
  match L with
  | [] => some r
  | _ :: _ => (solve (2 * L.length) (cMat L.reverse gamma) (cRhs L.reverse r v)).map fun b => cOut L.reverse gamma b r

theorem Rep.cmpMatvec {st : LB S V} {L} (h : Rep st L) (solve : LinSolve S) (v : V) :
    (st.cmpMatvec solve v).1 = compactList solve st.scaling L v := by
  have hlen : L.reverse.length = L.length := List.length_reverse
  obtain ⟨g, e, hg⟩ := updateGamma_state st (fun gamma r => vdiv r gamma) v
  obtain ⟨u1, u2⟩ := h.updateGamma (fun gamma r => vdiv r gamma) v
  set r := scaleBy st.scaling (fun g q => vdiv q g) L v with hr
  have hR : Rep { st with gamma := g } L :=
    ⟨h.insert_lt, h.len, h.slots, fun hs => (hg hs).trans (h.gamma hs), h.thr⟩
  have hgam : g = (if st.scaling then gammaOf st.gamma L else st.gamma) := by
    rw [e] at u2; exact u2
  unfold LB.cmpMatvec
  simp only
  rw [u1, e]
  obtain ⟨c1, c2⟩ := hR.cmp1 r
  have c3 := hR.cmp3 g
  simp only at c1 c2 c3 ⊢
  simp only [c1, c2, c3]
  cases hL : L with
  | nil => simp [compactList, scaleBy, hr, hL]
  | cons p L' =>
    rw [if_pos (by simp)]
    have hgg : g = if st.scaling then gammaOf (lit 1) (p :: L') else lit 1 := by
      rw [hgam, hL]
      by_cases hs : st.scaling = true
      · simp only [hs, if_true, gammaOf]
      · rw [if_neg hs, if_neg hs]; exact h.gamma (by simpa using hs)
    rw [← hL]
    simp only [compactList]
    rw [hL]
    simp only
    rw [← hL] at hgg ⊢
    rw [← hgg, ← hr]
    cases solve (2 * L.length) (cMat L.reverse g) (cRhs L.reverse r v) with
    | none => rfl
    | some b =>
      simp only [Option.map_some, Option.some.injEq]
      unfold cOut
      rw [hlen]
      refine foldl_congr_range _ _ _ (fun a i hi => ?_) r
      obtain ⟨-, e2, e3⟩ := hR.old hi
      unfold cmpStep4
      simp only at e2 e3 ⊢
      have hk : LB.idx { st with gamma := g } ((st.insert : Int) - L.length + i) = LB.oo { st with gamma := g } L.length i :=
        idx_old _ hi
      rw [hk, e2, e3]

end Verif.Lbfgs
