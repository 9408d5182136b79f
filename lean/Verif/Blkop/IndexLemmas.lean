import Verif.Blkop.Index
import Verif.Blkop.DiagProps

/-!
# Helper lemmas: slices, selections of blocks
-/

set_option linter.unusedSectionVars false

namespace Verif.Blkop
open Verif.Linop

/-! ## Slices -/

theorem clip_mem {n lo hi : Int} (h : lo ≤ hi) (a : Int) : lo ≤ Slice.clip n lo hi a ∧ Slice.clip n lo hi a ≤ hi := by
  unfold Slice.clip
  dsimp only
  generalize (if a < 0 then a + n else a) = b
  split
  · omega
  · split <;> omega

theorem Slice.first_pos (s : Slice) (n : Nat) {step : Int} (h : 0 < step) : 0 ≤ s.first n step ∧ s.first n step ≤ n := by
  unfold Slice.first
  rw [if_neg (by omega)]
  split
  · omega
  · exact clip_mem (by omega) _

theorem Slice.bound_pos (s : Slice) (n : Nat) {step : Int} (h : 0 < step) : 0 ≤ s.bound n step ∧ s.bound n step ≤ n := by
  unfold Slice.bound
  rw [if_neg (by omega)]
  split
  · omega
  · exact clip_mem (by omega) _

theorem Slice.first_neg (s : Slice) (n : Nat) {step : Int} (h : step < 0) :
    -1 ≤ s.first n step ∧ s.first n step ≤ n - 1 := by
  unfold Slice.first
  rw [if_pos h]
  split
  · omega
  · exact clip_mem (by omega) _

theorem Slice.bound_neg (s : Slice) (n : Nat) {step : Int} (h : step < 0) :
    -1 ≤ s.bound n step ∧ s.bound n step ≤ n - 1 := by
  unfold Slice.bound
  rw [if_pos h]
  split
  · omega
  · exact clip_mem (by omega) _

/-- index `k` is counted exactly when it has not reached the bound -/
theorem Slice.count_pos {a b step : Int} (h : 0 < step) (k : Nat) : k < Slice.count a b step ↔ a + k * step < b := by
  unfold Slice.count
  rw [if_neg (by omega)]
  split
  · next hab =>
    have h0 : 0 ≤ (b - a - 1) / step := Int.ediv_nonneg (by omega) (by omega)
    rw [Int.lt_toNat, Int.lt_add_one_iff, Int.le_ediv_iff_mul_le h]
    omega
  · next hab =>
    have : 0 ≤ (k : Int) * step := Int.mul_nonneg (by omega) (by omega)
    constructor
    · intro h; omega
    · intro h; omega

theorem Slice.count_neg {a b step : Int} (h : step < 0) (k : Nat) : k < Slice.count a b step ↔ b < a + k * step := by
  unfold Slice.count
  rw [if_pos h]
  have e : (k : Int) * step = -(k * -step) := by rw [Int.mul_neg, Int.neg_neg]
  split
  · next hab =>
    rw [Int.lt_toNat, Int.lt_add_one_iff, Int.le_ediv_iff_mul_le (by omega)]
    omega
  · next hab =>
    have : 0 ≤ (k : Int) * -step := Int.mul_nonneg (by omega) (by omega)
    constructor
    · intro h; omega
    · intro h; omega

/-- all positions exist -/
theorem Slice.indices_lt {s : Slice} {n : Nat} {I : List Nat} (h : s.indices n = .ok I) : ∀ x ∈ I, x < n := by
  unfold Slice.indices at h
  dsimp only at h
  split at h
  · cases h
  · next h0 =>
    cases h
    intro x hx
    obtain ⟨k, hk, rfl⟩ := List.mem_map.1 hx
    have hk := List.mem_range.1 hk
    rcases lt_or_gt_of_ne h0 with hn | hp
    · have h1 := (Slice.count_neg hn k).1 hk
      have h2 := s.first_neg n hn
      have h3 := s.bound_neg n hn
      have : (k : Int) * s.step.getD 1 ≤ 0 := Int.mul_nonpos_of_nonneg_of_nonpos (by omega) (by omega)
      omega
    · have h1 := (Slice.count_pos hp k).1 hk
      have h2 := s.first_pos n hp
      have h3 := s.bound_pos n hp
      have : 0 ≤ (k : Int) * s.step.getD 1 := Int.mul_nonneg (by omega) (by omega)
      omega

theorem Idx.select_lt {i : Idx} {n : Nat} {I : List Nat} (h : i.select n = .ok I) : ∀ x ∈ I, x < n := by
  cases i with
  | int i =>
    simp only [Idx.select] at h
    cases ha : pyIndex n i with
    | none => rw [ha] at h; cases h
    | some a =>
      rw [ha] at h
      cases h
      intro x hx
      rw [List.mem_singleton.1 hx]
      exact pyIndex_lt ha
  | slice s => exact Slice.indices_lt h

theorem selectCols_lt {j : Option Idx} {n : Nat} {J : List Nat} (h : selectCols n j = .ok J) : ∀ x ∈ J, x < n := by
  cases j with
  | none => cases h; intro x hx; exact List.mem_range.1 hx
  | some j => exact Idx.select_lt h

/-- a slice with non-zero step, as an explicit list -/
theorem Slice.indices_eq {s : Slice} {n : Nat} (h0 : s.step.getD 1 ≠ 0) :
    s.indices n = .ok ((List.range (Slice.count (s.first n (s.step.getD 1)) (s.bound n (s.step.getD 1)) (s.step.getD 1))).map
      fun k : Nat => (s.first n (s.step.getD 1) + k * s.step.getD 1).toNat) := by
  unfold Slice.indices
  dsimp only
  rw [if_neg h0]

theorem Slice.pos_spec (s : Slice) (n : Nat) (hp : 0 < s.step.getD 1) : ∃ I, s.indices n = .ok I ∧ I.Pairwise (· < ·) ∧
    ∀ x : Nat, x ∈ I ↔ s.first n (s.step.getD 1) ≤ x ∧ (x : Int) < s.bound n (s.step.getD 1) ∧
      s.step.getD 1 ∣ x - s.first n (s.step.getD 1) := by
  refine ⟨_, s.indices_eq (by omega), ?_, ?_⟩
  · generalize s.step.getD 1 = t at hp
    have h2 := s.first_pos n hp
    rw [List.pairwise_map]
    refine List.Pairwise.imp ?_ List.pairwise_lt_range
    intro a b hab
    have e : ((a : Int) + 1) * t ≤ b * t := Int.mul_le_mul_of_nonneg_right (by omega) (by omega)
    have h3 : 0 ≤ (a : Int) * t := Int.mul_nonneg (by omega) (by omega)
    rw [Int.add_mul] at e
    omega
  · generalize s.step.getD 1 = t at hp
    have h2 := s.first_pos n hp
    intro x
    simp only [List.mem_map, List.mem_range]
    constructor
    · rintro ⟨k, hk, rfl⟩
      have h1 := (Slice.count_pos hp k).1 hk
      have h3 : 0 ≤ (k : Int) * t := Int.mul_nonneg (by omega) (by omega)
      refine ⟨by omega, by omega, k, ?_⟩
      rw [Int.mul_comm t]
      omega
    · rintro ⟨h4, h5, k, hk⟩
      have hk0 : 0 ≤ k := by
        by_contra hc
        have : t * k < 0 := Int.mul_neg_of_pos_of_neg hp (by omega)
        omega
      refine ⟨k.toNat, (Slice.count_pos hp _).2 ?_, ?_⟩
      · rw [Int.toNat_of_nonneg hk0, Int.mul_comm]; omega
      · rw [Int.toNat_of_nonneg hk0, Int.mul_comm]; omega

theorem Slice.neg_spec (s : Slice) (n : Nat) (hn : s.step.getD 1 < 0) : ∃ I, s.indices n = .ok I ∧ I.Pairwise (· > ·) ∧
    ∀ x : Nat, x ∈ I ↔ (x : Int) ≤ s.first n (s.step.getD 1) ∧ s.bound n (s.step.getD 1) < x ∧
      s.step.getD 1 ∣ x - s.first n (s.step.getD 1) := by
  refine ⟨_, s.indices_eq (by omega), ?_, ?_⟩
  · generalize s.step.getD 1 = t at hn
    have h2 := s.first_neg n hn
    have h4 := s.bound_neg n hn
    rw [List.pairwise_map]
    refine List.Pairwise.imp_of_mem ?_ List.pairwise_lt_range
    intro a b _ hb hab
    have hb := (Slice.count_neg hn b).1 (List.mem_range.1 hb)
    have e : ((a : Int) + 1) * -t ≤ b * -t := Int.mul_le_mul_of_nonneg_right (by omega) (by omega)
    rw [Int.add_mul, Int.mul_neg, Int.mul_neg, Int.mul_neg] at e
    omega
  · generalize s.step.getD 1 = t at hn
    have h2 := s.first_neg n hn
    have h6 := s.bound_neg n hn
    intro x
    simp only [List.mem_map, List.mem_range]
    constructor
    · rintro ⟨k, hk, rfl⟩
      have h1 := (Slice.count_neg hn k).1 hk
      have h3 : (k : Int) * t ≤ 0 := Int.mul_nonpos_of_nonneg_of_nonpos (by omega) (by omega)
      refine ⟨by omega, by omega, k, ?_⟩
      rw [Int.mul_comm t]
      omega
    · rintro ⟨h4, h5, k, hk⟩
      have hk0 : 0 ≤ k := by
        by_contra hc
        have : 0 < t * k := Int.mul_pos_of_neg_of_neg hn (by omega)
        omega
      refine ⟨k.toNat, (Slice.count_neg hn _).2 ?_, ?_⟩
      · rw [Int.toNat_of_nonneg hk0, Int.mul_comm]; omega
      · rw [Int.toNat_of_nonneg hk0, Int.mul_comm]; omega

/-! ## Selections of blocks -/

variable {K : Type} [CommRing K] [StarRing K] [DTypes K] [DecidableEq K]

theorem getD_map {α β : Type} (f : α → β) (l : List α) (a : Nat) (d : α) (e : β) (h : a < l.length) :
    (l.map f).getD a e = f (l.getD a d) := by
  simp [List.getD_eq_getElem?_getD, h]

theorem getD_mem {l : List Nat} {a : Nat} (h : a < l.length) : l.getD a 0 ∈ l := by
  rw [List.getD_eq_getElem?_getD, List.getElem?_eq_getElem h]; exact List.getElem_mem h

/-- the operators selected -/
theorem GoodGrid.sub {D : List (Mat K)} {S : Nat → Prop} {G : Grid} {hts wds : List Nat} {M : Nat → Nat → Mat K}
    (g : GoodGrid D S G hts wds M) {I J : List Nat} (hI : ∀ a ∈ I, a < hts.length) (hJ : ∀ b ∈ J, b < wds.length)
    (h1 : I ≠ []) (h2 : J ≠ []) :
    GoodGrid D S (I.map fun p => J.map fun q => entry G p q) (I.map fun a => hts.getD a 0) (J.map fun b => wds.getD b 0)
      fun a b => M (I.getD a 0) (J.getD b 0) := by
  obtain ⟨R, rfl, hR⟩ := g.grid
  have hent : ∀ p < hts.length, ∀ q < wds.length, entry (mkG hts.length wds.length R) p q = some (R p q) := by
    intro p hp q hq; unfold entry; rw [mkG_get hp hq]; rfl
  refine ⟨⟨by simpa using h1, by simpa using h2⟩, ⟨fun a b => R (I.getD a 0) (J.getD b 0), ?_, ?_⟩, ?_, ?_⟩
  · apply List.ext_getElem (by simp [mkG])
    intro a ha hb
    apply List.ext_getElem (by simp [mkG])
    intro b hb' hb''
    simp only [List.length_map] at ha
    simp only [List.getElem_map, List.length_map] at hb'
    have e1 : I[a] = I.getD a 0 := by rw [List.getD_eq_getElem?_getD, List.getElem?_eq_getElem ha]; rfl
    have e2 : J[b] = J.getD b 0 := by rw [List.getD_eq_getElem?_getD, List.getElem?_eq_getElem hb']; rfl
    have e3 : (mkG (I.map fun a => hts.getD a 0).length (J.map fun b => wds.getD b 0).length
        fun a b => R (I.getD a 0) (J.getD b 0))[a][b] = some (R (I.getD a 0) (J.getD b 0)) := by simp [mkG]
    rw [e3]
    simp only [List.getElem_map]
    rw [hent _ (hI _ (List.getElem_mem ha)) _ (hJ _ (List.getElem_mem hb')), e1, e2]
  · intro a ha b hb
    simp only [List.length_map] at ha hb
    exact hR _ (hI _ (getD_mem ha)) _ (hJ _ (getD_mem hb))
  · intro a ha b hb
    simp only [List.length_map] at ha hb
    rw [g.rows _ (hI _ (getD_mem ha)) _ (hJ _ (getD_mem hb)), getD_map _ _ _ 0 _ ha]
  · intro a ha b hb
    simp only [List.length_map] at ha hb
    rw [g.cols _ (hI _ (getD_mem ha)) _ (hJ _ (getD_mem hb)), getD_map _ _ _ 0 _ hb]

theorem GoodGrid.length {D : List (Mat K)} {S : Nat → Prop} {G : Grid} {hts wds : List Nat} {M : Nat → Nat → Mat K}
    (g : GoodGrid D S G hts wds M) : G.length = hts.length ∧ ncols G = wds.length := by
  obtain ⟨R, rfl, _⟩ := g.grid
  refine ⟨mkG_length _ _ _, ?_⟩
  obtain ⟨a, l, e⟩ : ∃ a l, hts = a :: l := List.exists_cons_of_ne_nil g.pos.1
  simp [ncols, mkG, e, List.range_succ_eq_map]

theorem GoodGrid.entry {D : List (Mat K)} {S : Nat → Prop} {G : Grid} {hts wds : List Nat} {M : Nat → Nat → Mat K}
    (g : GoodGrid D S G hts wds M) {a b : Nat} (ha : a < hts.length) (hb : b < wds.length) :
    ∃ r, Blkop.entry G a b = some r ∧ (G[a]?.bind fun row => row[b]?) = some (some r) ∧ Good D S r (M a b) := by
  obtain ⟨R, rfl, hR⟩ := g.grid
  exact ⟨R a b, by unfold Blkop.entry; rw [mkG_get ha hb]; rfl, mkG_get ha hb, hR a ha b hb⟩

section
variable {D : List (Mat K)} {h : Heap K} {S : Nat → Prop} (I : HInv D h) (hS : Closed h S)
include I hS

theorem Good.actsAs {r : Nat} {A : Mat K} (g : Good D S r A) : ActsAs h r A := by
  have key : ∀ {r : Nat} {A : Mat K}, Good D S r A → Represents h r A ∧ Total h r A := by
    intro r A g
    obtain ⟨hs, B, hB, hE⟩ := g
    exact ⟨I.represents hB hE, closed_total I hS hs hB hE⟩
  obtain ⟨t, ht, gt⟩ := g.T I hS
  obtain ⟨u, hu, gu⟩ := g.H I hS
  exact ⟨(key g).1, (key g).2, ⟨t, ht, key gt⟩, ⟨u, hu, key gu⟩⟩

end

end Verif.Blkop
