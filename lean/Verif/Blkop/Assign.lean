import Verif.Blkop.Flagged

/-!
# Helper lemmas: assignments to symmetric and hermitian block operators
-/

set_option linter.unusedSectionVars false

namespace Verif.Blkop
open Verif.Linop Finset

variable {K : Type} [CommRing K] [StarRing K] [DTypes K] [DecidableEq K]

theorem mirror_upd {tr : Mat K → Mat K} {M : Nat → Nat → Mat K} {p q : Nat} (hpq : p ≤ q) (B : Mat K) :
    mirror tr (updM (mirror tr M) p q B) = mirror tr (updM M p q B) := by
  have key : ∀ i j, i ≤ j → updM (mirror tr M) p q B i j = updM M p q B i j := by
    intro i j hij
    unfold updM
    split
    · rfl
    · exact if_pos hij
  funext i j
  show (if i ≤ j then updM (mirror tr M) p q B i j else tr (updM (mirror tr M) p q B j i)) =
    (if i ≤ j then updM M p q B i j else tr (updM M p q B j i))
  split
  · next hij => exact key i j hij
  · next hij => rw [key j i (by omega)]

theorem mirror_upd_lower {tr : Mat K → Mat K} {M : Nat → Nat → Mat K} {p q : Nat} (hpq : q < p) (B : Mat K) :
    mirror tr (updM (mirror tr M) p q B) = mirror tr M := by
  have key : ∀ i j, i ≤ j → updM (mirror tr M) p q B i j = M i j := by
    intro i j hij
    unfold updM
    rw [if_neg (by omega)]
    exact if_pos hij
  funext i j
  show (if i ≤ j then updM (mirror tr M) p q B i j else tr (updM (mirror tr M) p q B j i)) =
    (if i ≤ j then M i j else tr (M j i))
  split
  · next hij => exact key i j hij
  · next hij => rw [key j i (by omega)]

section
variable {D : List (Mat K)} {h : Heap K} {S : Nat → Prop}

theorem flagged_set (I : HInv D h) (hS : Closed h S) {o : BlkOp} {ns : List Nat} {M : Nat → Nat → Mat K}
    (g : GoodGrid D S o.blocks ns ns M) (hf : o.symmetric = true ∨ o.hermitian = true) {i j : Int} {p q v : Nat}
    (hi : pyIndex ns.length i = some p) (hj : pyIndex ns.length j = some q) {B : Mat K} (hv : Good D S v B)
    (hr : B.rows = ns.getD p 0) (hc : B.cols = ns.getD q 0) :
    ∃ G, o.set h i j v = .ok { o with blocks := G } ∧
      GoodGrid D S G ns ns (mirror (trOf o.symmetric) (updM M p q B)) := by
  obtain ⟨G1, hG1, g1⟩ := set_good g hi hj hv hr hc
  obtain ⟨F, rfl, hF⟩ := g1.grid
  have hex : ∀ i j, ∃ t, j < i → i < ns.length → (if o.symmetric = true then getT h else getH h) (F j i) = some t := by
    intro i j
    by_cases hi : j < i ∧ i < ns.length
    · have gd := hF j (by omega) i hi.2
      cases o.symmetric with
      | true => obtain ⟨t, ht, _⟩ := gd.T I hS; exact ⟨t, fun _ _ => ht⟩
      | false => obtain ⟨t, ht, _⟩ := gd.H I hS; exact ⟨t, fun _ _ => ht⟩
    · exact ⟨0, fun h1 h2 => absurd ⟨h1, h2⟩ hi⟩
  choose R hR using hex
  have hm := mirrorAll_ok (attr := if o.symmetric = true then getT h else getH h) (n := ns.length) (F := F) (R := R)
    fun i hi j hj => hR i j hj hi
  refine ⟨_, ?_, mirror_good I hS (sym := o.symmetric) (M := updM M p q B) rfl g.pos.1 (F := fun i j =>
    if j < i ∧ i < ns.length then R i j else F i j) ?_ ?_ ?_ ?_⟩
  · simp only [BlkOp.set, hG1, bind, Except.bind, if_pos hf, hm]
  · intro i j hij hj
    rw [if_neg (by omega)]
    exact hF i (by omega) j hj
  · intro i hi j hj
    have e1 : (if i < j ∧ j < ns.length then R j i else F j i) = F j i := if_neg (by omega)
    have e2 : (if j < i ∧ i < ns.length then R i j else F i j) = R i j := if_pos ⟨hj, hi⟩
    simp only [e1, e2]
    exact hR i j hj hi
  · intro i j hij hj; exact g1.rows i (by omega) j hj
  · intro i j hij hj; exact g1.cols i (by omega) j hj

/-! ## Products with the operator and with its conjugate -/

/-- products with `A`, whatever the recursion depth left -/
def Products (h : Heap K) (n r : Nat) (A : Mat K) : Prop :=
  ∀ (fuel : Nat) (x : Arr K) (c : Cnt), x.Typed → x.data.length = A.cols →
    ∃ c', run h (fuel + n) r x c = (.ok ⟨A.kind.join x.kind, A.app x.data⟩, c')

theorem Products.total {n r : Nat} {A : Mat K} (hp : Products h n r A) (hn : n ≤ h.length) : Total h r A := by
  intro fuel x c hf hx hl
  obtain ⟨m, rfl⟩ : ∃ m, fuel = m + n := ⟨fuel - n, by omega⟩
  exact hp m x c hx hl

theorem prim_products {r : Nat} {o : Obj K} {f : Fn K} {A : Mat K} (ho : h[r]? = some o) (hc : o.code = .prim f)
    (h1 : o.nargin = A.cols) (h2 : o.nargout = A.rows) (h3 : o.dtype = A.kind) (hA : A.Typed)
    (hf : ∀ x : Arr K, x.Typed → x.data.length = A.cols → f x = .ok ⟨A.kind.join x.kind, A.app x.data⟩) :
    Products h 1 r A := by
  intro fuel x c hx hl
  obtain ⟨c', hc'⟩ := run_prim ho hc fuel (by rw [hl, h1]) (hf x hx hl) (by rw [h2]; simp [Mat.app_length]) c
  refine ⟨c', ?_⟩
  rw [hc', h3, astype_of_mem (Mat.app_typed hA hx)]

theorem conj_products {r t : Nat} {o : Obj K} {A : Mat K} (ho : h[t]? = some o) (hc : o.code = .conj ⟨r, .self⟩)
    (hr : r < h.length) (h1 : o.nargin = A.cols) (h2 : o.nargout = A.rows) (h3 : o.dtype = A.kind)
    (hk : A.kind = .complex) (hp : Products h 1 r A) : Products h 2 t A.conj := by
  intro fuel x c hx hl
  have hres : resolve h ⟨r, .self⟩ = .ok r := by simp [resolve, List.getElem?_eq_getElem hr]
  have hl' : x.data.length = o.nargin := by rw [h1]; exact hl
  by_cases hxk : x.kind = .complex
  · obtain ⟨c', hc'⟩ := hp fuel x.conj (c.modify t (· + 1)) (Arr.conj_typed hx) (by simp only [Arr.conj, List.length_map]; exact hl)
    refine ⟨c', ?_⟩
    rw [show fuel + 2 = (fuel + 1) + 1 by rfl, run]
    generalize run h (fuel + 1) = g at hc'
    simp only [ho, bind, Act.bind, bump, hl', ne_eq, not_true_eq_false, if_false, hc, evalCode, liftE, hres, hxk,
      if_true, hc', Act.pure]
    have e : (Arr.conj ⟨A.kind.join x.conj.kind, A.app x.conj.data⟩ : Arr K).data = A.conj.app x.data := by
      rw [Mat.app_conj]; rfl
    rw [if_neg (by rw [e, Mat.app_length, h2]; simp [Mat.conj])]
    congr 2
    rw [h3]
    refine (astype_of_mem fun a _ => ?_).trans ?_
    · rw [hk]; cases x.kind <;> exact DTypes.complex_all a
    · rw [e]; simp [Mat.conj, hk, hxk]
  · obtain ⟨c', hc'⟩ := hp fuel x (c.modify t (· + 1)) hx hl
    refine ⟨c', ?_⟩
    rw [show fuel + 2 = (fuel + 1) + 1 by rfl, run]
    generalize run h (fuel + 1) = g at hc'
    simp only [ho, bind, Act.bind, bump, hl', ne_eq, not_true_eq_false, if_false, hc, evalCode, liftE, hres, hxk,
      hc', Act.pure]
    have hxs : x.data.map star = x.data := by
      conv_rhs => rw [← List.map_id x.data]
      apply List.map_congr_left
      intro a ha
      exact star_eq_of_mem hxk (hx a ha)
    have e : (Arr.conj ⟨A.kind.join x.kind, A.app x.data⟩ : Arr K).data = A.conj.app x.data := by
      rw [Mat.app_conj, hxs]; rfl
    rw [if_neg (by rw [e, Mat.app_length, h2]; simp [Mat.conj])]
    congr 2
    rw [h3]
    refine (astype_of_mem fun a _ => ?_).trans ?_
    · rw [hk]; cases x.kind <;> exact DTypes.complex_all a
    · rw [e]; simp [Mat.conj, hk]

/-- a consistent forward list is enough for products with the operator -/
theorem fwd_products (I : HInv D h) (hS : Closed h S) {b : BlkOp} {hts wds : List Nat} {M : Nat → Nat → Mat K}
    (h1 : b.nargin = wds.sum) (h2 : b.nargout = hts.sum) (hk : Absorbs b.dtype hts wds M)
    (g : GoodGrid D S b.blocks hts wds M) :
    Products (b.objs h).2 1 (b.objs h).1 (blockMatK b.dtype hts wds M) := by
  obtain ⟨o, ho, hc, e1, e2, e3⟩ := ctor_get (K := K) b.nargin b.nargout (.prim (blkMatvec h b.dtype b.blocks))
    (some (.prim (blkMatvec h b.dtype b.blocksT))) (some (.prim (blkMatvec h b.dtype b.blocksH))) b.symmetric
    b.hermitian b.dtype h
  rw [objs_fst]
  refine prim_products ho hc (e1.trans h1) (e2.trans h2) e3 (blockMatK_typed I hS g hk) ?_
  intro x hx hl
  exact blkMatvec_ok I hS g hk hx hl

/-- for complex operators with one flag, the missing one of `T`, `H` is the conjugate operator -/
theorem conj_object (b : BlkOp) (h : Heap K) (hk : b.dtype = .complex) (hsh : b.nargin = b.nargout) :
    (b.symmetric = true → ∃ t o, getH (b.objs h).2 (b.objs h).1 = some t ∧ (b.objs h).2[t]? = some o ∧
      o.code = .conj ⟨(b.objs h).1, .self⟩ ∧ o.nargin = b.nargin ∧ o.nargout = b.nargout ∧ o.dtype = b.dtype) ∧
    (b.hermitian = true → b.symmetric = false → ∃ t o, getT (b.objs h).2 (b.objs h).1 = some t ∧
      (b.objs h).2[t]? = some o ∧
      o.code = .conj ⟨(b.objs h).1, .self⟩ ∧ o.nargin = b.nargin ∧ o.nargout = b.nargout ∧ o.dtype = b.dtype) := by
  obtain ⟨nin, nout, sy, he, dt, G, GT, GH⟩ := b
  simp only at hk hsh
  subst hk
  subst hsh
  unfold BlkOp.objs BlkOp.args
  rw [LinearOperator_complex]
  constructor
  · intro hs
    simp only at hs
    subst hs
    cases he <;> simp [getH, newComplex, mkFwd, mkConj]
  · intro hs hh
    simp only at hs hh
    subst hs hh
    simp [getT, newComplex, mkFwd, mkConj]

end
end Verif.Blkop
