import Verif.Blkop.Upper

/-!
# Helper lemmas: symmetric and hermitian block operators
-/

set_option linter.unusedSectionVars false

namespace Verif.Blkop
open Verif.Linop Finset

variable {K : Type} [CommRing K] [StarRing K] [DTypes K] [DecidableEq K]

/-- the transposition used to complete the triangle -/
def trOf (sym : Bool) : Mat K → Mat K := if sym = true then Mat.T else Mat.H

theorem HH_eqv (A : Mat K) : A.H.H.Eqv A := ⟨rfl, rfl, rfl, fun i _ j _ => by simp [Mat.H]⟩
theorem TT_eqv (A : Mat K) : A.T.T.Eqv A := ⟨rfl, rfl, rfl, fun _ _ _ _ => rfl⟩

theorem typed_star {A : Mat K} (hA : A.Typed) (hk : A.kind ≠ .complex) {i j : Nat} (hi : i < A.rows) (hj : j < A.cols) :
    star (A.e i j) = A.e i j := by
  have := hA i hi j hj
  cases hkk : A.kind with
  | complex => exact absurd hkk hk
  | real => rw [hkk] at this; exact DTypes.real_star this
  | int => rw [hkk] at this; exact DTypes.real_star (DTypes.int_le_real this)

theorem T_eqv_H {A : Mat K} (hA : A.Typed) (hk : A.kind ≠ .complex) : A.T.Eqv A.H :=
  ⟨rfl, rfl, rfl, fun _ hi _ hj => (typed_star hA hk hj hi).symm⟩

theorem trOf_shape (sym : Bool) (A : Mat K) :
    (trOf sym A).rows = A.cols ∧ (trOf sym A).cols = A.rows ∧ (trOf sym A).kind = A.kind := by
  unfold trOf; split <;> exact ⟨rfl, rfl, rfl⟩

theorem absorb_ne_complex {k a : DKind} (h : k.join a = k) (hk : k ≠ .complex) : a ≠ .complex := by
  cases k <;> cases a <;> simp_all [DKind.join]

section
variable {D : List (Mat K)} {h : Heap K} {S : Nat → Prop}

/-- upper triangles with known matrices -/
structure GoodUpper (D : List (Mat K)) (S : Nat → Prop) (h : Heap K) (sym herm : Bool) (U : Grid) (ns : List Nat)
    (M : Nat → Nat → Mat K) : Prop where
  pos : ns ≠ []
  grid : ∃ R, U = mkU ns.length R ∧ (∀ i j, i ≤ j → j < ns.length → Good D S (R i j) (M i j)) ∧
    ∀ i < ns.length, ∃ o : Obj K, h[R i i]? = some o ∧ (sym = true → o.symmetric = true) ∧
      (herm = true → o.hermitian = true)
  rows : ∀ i j, i ≤ j → j < ns.length → (M i j).rows = ns.getD i 0
  cols : ∀ i j, i ≤ j → j < ns.length → (M i j).cols = ns.getD j 0

theorem UpperGrid.good {env : List Nat} {mats : List (Mat K)}
    (hg : ∀ (v r : Nat) (A : Mat K), env[v]? = some r → mats[v]? = some A → Good D S r A) {sym herm : Bool} {U : Grid}
    {ns : List Nat} {M : Nat → Nat → Mat K} (u : UpperGrid env h mats sym herm U ns M) :
    GoodUpper D S h sym herm U ns M := by
  have hR : ∀ i j, ∃ r, i ≤ j → j < ns.length →
      (U[i]?.bind fun row => row[j - i]?) = some (some r) ∧ Good D S r (M i j) := by
    intro i j
    by_cases hi : i ≤ j
    · by_cases hj : j < ns.length
      · obtain ⟨v, r, h1, h2, h3⟩ := u.entry i j hi hj
        exact ⟨r, fun _ _ => ⟨h3, hg v r _ h1 h2⟩⟩
      · exact ⟨0, fun _ h => absurd h hj⟩
    · exact ⟨0, fun h => absurd h hi⟩
  choose R hR using hR
  refine ⟨u.pos, ⟨R, mkU_of_entries u.nrows u.ncols fun i j hi hj => (hR i j hi hj).1,
    fun i j hi hj => (hR i j hi hj).2, ?_⟩, u.rows, u.cols⟩
  intro i hi
  obtain ⟨r, o, h1, h2, h3⟩ := u.diag i hi
  have := (hR i i le_rfl hi).1
  rw [Nat.sub_self, h1] at this
  simp only [Option.some.injEq] at this
  exact ⟨o, this ▸ h2, h3⟩

theorem mirror_good (I : HInv D h) (hS : Closed h S) {n : Nat} {ns : List Nat} (hn : ns.length = n) (hpos : ns ≠ [])
    {sym : Bool} {M : Nat → Nat → Mat K} {F : Nat → Nat → Nat}
    (hu : ∀ i j, i ≤ j → j < n → Good D S (F i j) (M i j))
    (hF : ∀ i < n, ∀ j < i, (if sym = true then getT h else getH h) (F j i) = some (F i j))
    (hr : ∀ i j, i ≤ j → j < ns.length → (M i j).rows = ns.getD i 0)
    (hc : ∀ i j, i ≤ j → j < ns.length → (M i j).cols = ns.getD j 0) :
    GoodGrid D S (mkG n n F) ns ns (mirror (trOf sym) M) := by
  subst hn
  refine ⟨⟨hpos, hpos⟩, ⟨F, rfl, ?_⟩, ?_, ?_⟩
  · intro i hi j hj
    unfold mirror
    split
    · next hij => exact hu i j hij hj
    · next hij =>
      have g := hu j i (by omega) hi
      have e := hF i hi j (by omega)
      unfold trOf
      cases sym with
      | true =>
        obtain ⟨t, ht, gt⟩ := g.T I hS
        simp only [if_true] at e ⊢
        rw [ht] at e; cases e; exact gt
      | false =>
        obtain ⟨t, ht, gt⟩ := g.H I hS
        simp only [Bool.false_eq_true, if_false] at e ⊢
        rw [ht] at e; cases e; exact gt
  · intro i hi j hj
    unfold mirror
    split
    · next hij => exact hr i j hij hj
    · next hij => rw [(trOf_shape sym _).1]; exact hc j i (by omega) hi
  · intro i hi j hj
    unfold mirror
    split
    · next hij => exact hc i j hij hj
    · next hij => rw [(trOf_shape sym _).2.1]; exact hr j i (by omega) hi

/-- the completed triangle is symmetric (hermitian) block by block -/
theorem mirror_sym {n : Nat} {sym herm : Bool} {M : Nat → Nat → Mat K} (hf : sym = true ∨ herm = true)
    (hd : ∀ i < n, (sym = true → (M i i).Eqv (M i i).T) ∧ (herm = true → (M i i).Eqv (M i i).H))
    (ht : sym = true → herm = true → ∀ i j, i ≤ j → j < n → (M i j).Typed ∧ (M i j).kind ≠ .complex) :
    (sym = true → ∀ i < n, ∀ j < n, (mirror (trOf sym) M j i).T.Eqv (mirror (trOf sym) M i j)) ∧
    (herm = true → ∀ i < n, ∀ j < n, (mirror (trOf sym) M j i).H.Eqv (mirror (trOf sym) M i j)) := by
  constructor
  · intro hs i hi j hj
    subst hs
    unfold mirror trOf
    simp only [if_true]
    rcases lt_trichotomy i j with hij | rfl | hij
    · rw [if_neg (by omega), if_pos (by omega)]; exact TT_eqv _
    · simp only [le_refl, if_true]; exact ((hd i hi).1 rfl).symm
    · rw [if_pos (by omega), if_neg (by omega)]; exact Mat.Eqv.refl _
  · intro hh i hi j hj
    subst hh
    unfold mirror trOf
    cases sym with
    | false =>
      simp only [Bool.false_eq_true, if_false]
      rcases lt_trichotomy i j with hij | rfl | hij
      · rw [if_neg (by omega), if_pos (by omega)]; exact HH_eqv _
      · simp only [le_refl, if_true]; exact ((hd i hi).2 rfl).symm
      · rw [if_pos (by omega), if_neg (by omega)]; exact Mat.Eqv.refl _
    | true =>
      simp only [if_true]
      rcases lt_trichotomy i j with hij | rfl | hij
      · rw [if_neg (by omega), if_pos (by omega)]
        obtain ⟨t1, t2⟩ := ht rfl rfl i j (by omega) hj
        exact ⟨rfl, rfl, rfl, fun a ha b hb => typed_star t1 t2 ha hb⟩
      · simp only [le_refl, if_true]; exact ((hd i hi).2 rfl).symm
      · rw [if_pos (by omega), if_neg (by omega)]
        obtain ⟨t1, t2⟩ := ht rfl rfl j i (by omega) hi
        exact (T_eqv_H t1 t2).symm

theorem checkDiag_ok {sym herm : Bool} {n : Nat} {R : Nat → Nat → Nat}
    (hd : ∀ i < n, ∃ o : Obj K, h[R i i]? = some o ∧ (sym = true → o.symmetric = true) ∧
      (herm = true → o.hermitian = true)) : checkDiag h sym herm (mkU n R) = .ok () := by
  unfold checkDiag
  rw [mapM_ok _ (fun _ => ())]
  · rfl
  · intro row hrow
    obtain ⟨i, hi, rfl⟩ := List.mem_map.1 hrow
    have hi := List.mem_range.1 hi
    obtain ⟨o, ho, h1, h2⟩ := hd i hi
    obtain ⟨m, hm⟩ : ∃ m, n - i = m + 1 := ⟨n - i - 1, by omega⟩
    rw [hm, List.range_succ_eq_map, List.map_cons]
    simp only [hd, bind, Except.bind, Nat.add_zero, Verif.Blkop.hd, flagsOf, ho]
    rw [if_neg (by rintro ⟨a, b⟩; rw [h1 a] at b; cases b), if_neg (by rintro ⟨a, b⟩; rw [h2 a] at b; cases b)]

theorem mkBlock_flagged (I : HInv D h) (hS : Closed h S) {sym herm : Bool} {U : Grid} {ns : List Nat}
    {M : Nat → Nat → Mat K} (g : GoodUpper D S h sym herm U ns M) (hf : sym = true ∨ herm = true)
    (hb : sym = true → herm = true → blockKind ns.length ns.length (mirror (trOf sym) M) ≠ .complex) :
    ∃ (op : BlkOp) (G : Grid), mkBlock h U sym herm = .ok (op, G) ∧ BlkInv D S op ns ns (mirror (trOf sym) M) ∧
      op.symmetric = sym ∧ op.hermitian = herm ∧ op.dtype = blockKind ns.length ns.length (mirror (trOf sym) M) ∧
      (G.length = ns.length ∧ ∀ row ∈ G, row.length = ns.length) ∧
      (sym = true → ∀ i < ns.length, ∀ j < ns.length,
        (mirror (trOf sym) M j i).T.Eqv (mirror (trOf sym) M i j)) ∧
      (herm = true → ∀ i < ns.length, ∀ j < ns.length,
        (mirror (trOf sym) M j i).H.Eqv (mirror (trOf sym) M i j)) := by
  obtain ⟨R, hU, hR, hd⟩ := g.grid
  -- the references of the completed grid
  have hex : ∀ i j, ∃ t, j < i → i < ns.length → (if sym = true then getT h else getH h) (R j i) = some t := by
    intro i j
    by_cases hi : j < i ∧ i < ns.length
    · have gd := hR j i (by omega) hi.2
      cases sym with
      | true => obtain ⟨t, ht, _⟩ := gd.T I hS; exact ⟨t, fun _ _ => ht⟩
      | false => obtain ⟨t, ht, _⟩ := gd.H I hS; exact ⟨t, fun _ _ => ht⟩
    · exact ⟨0, fun h1 h2 => absurd ⟨h1, h2⟩ hi⟩
  choose R' hR' using hex
  let F : Nat → Nat → Nat := fun i j => if i ≤ j then R i j else R' i j
  have hFu : ∀ i j, i ≤ j → F i j = R i j := fun i j hij => if_pos hij
  have hF : ∀ i < ns.length, ∀ j < i, (if sym = true then getT h else getH h) (F j i) = some (F i j) := by
    intro i hi j hj
    have e1 : F j i = R j i := if_pos (by omega)
    have e2 : F i j = R' i j := if_neg (by omega)
    rw [e1, e2]; exact hR' i j hj hi
  have hgood : GoodGrid D S (mkG ns.length ns.length F) ns ns (mirror (trOf sym) M) :=
    mirror_good I hS rfl g.pos (fun i j hij hj => by rw [hFu i j hij]; exact hR i j hij hj) hF g.rows g.cols
  have hdg : ∀ i < ns.length, (sym = true → (M i i).Eqv (M i i).T) ∧ (herm = true → (M i i).Eqv (M i i).H) := by
    intro i hi
    obtain ⟨o, ho, h1, h2⟩ := hd i hi
    obtain ⟨o', ho', _, _, _, h3, h4⟩ := (hR i i le_rfl hi).obj I hS
    rw [ho] at ho'; cases ho'
    exact ⟨fun hs => h3 (h1 hs), fun hh => h4 (h2 hh)⟩
  have hty : sym = true → herm = true → ∀ i j, i ≤ j → j < ns.length → (M i j).Typed ∧ (M i j).kind ≠ .complex := by
    intro hs hh i j hij hj
    refine ⟨(hR i j hij hj).typed I hS, ?_⟩
    have := blockKind_absorb (M := mirror (trOf sym) M) (show i < ns.length by omega) hj
    have e : mirror (trOf sym) M i j = M i j := if_pos hij
    rw [e] at this
    exact absorb_ne_complex this (hb hs hh)
  obtain ⟨s1, s2⟩ := mirror_sym hf hdg hty
  obtain ⟨op, h1, h2, h3, h4, h5⟩ := mkBlock_tail I hS hgood sym herm
    (fun hs i hi j hj => ⟨rfl, s1 hs i hi j hj⟩) (fun hs i hi j hj => ⟨rfl, s2 hs i hi j hj⟩)
  refine ⟨op, mkG ns.length ns.length F, ?_, h2, h3, h4, h5, ⟨by simp [mkG], ?_⟩, s1, s2⟩
  · have hU' : U = mkU ns.length F := by rw [hU]; exact mkU_congr fun i j hij _ => (hFu i j hij).symm
    have hlen : (mkU ns.length F).length = ns.length := by simp [mkU]
    obtain ⟨m, hm⟩ : ∃ m, ns.length = m + 1 := ⟨ns.length - 1, by
      have := List.length_pos_iff.2 g.pos; omega⟩
    have hh0 : ∃ r0, Verif.Blkop.hd (mkU ns.length F) = .ok r0 ∧ r0.length = ns.length := by
      refine ⟨(List.range ns.length).map fun k => some (F 0 k), ?_, by simp⟩
      simp [mkU, hm, List.range_succ_eq_map, Verif.Blkop.hd]
    obtain ⟨r0, e0, e1⟩ := hh0
    have hcd : checkDiag h sym herm (mkU ns.length F) = .ok () := by
      apply checkDiag_ok
      intro i hi
      rw [hFu i i le_rfl]; exact hd i hi
    have hfill := fillGrid_all (attr := if sym = true then getT h else getH h) hF
    rw [hU']
    unfold mkBlock
    rw [if_pos hf]
    simp only [e0, bind, Except.bind, hlen, e1, ne_eq, not_true_eq_false, if_false, hcd, hfill]
    exact h1
  · intro row hrow
    obtain ⟨i, _, rfl⟩ := List.mem_map.1 hrow
    simp

end
end Verif.Blkop
