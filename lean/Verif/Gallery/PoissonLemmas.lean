import Verif.Gallery.Poisson
import Mathlib.Tactic.Ring
import Mathlib.Tactic.Linarith

/-!
# Entries computed by the Poisson products
-/

namespace Verif.Gallery
variable {K : Type} [Sub K] [Mul K]

theorem isub_of_len {y : Arr K} {v : View} {x : Arr K} {w : View} (h : v.len = w.len) :
    isub y v x w = some { y with
      get := fun i => if v.start ≤ i ∧ i < v.stop then y.get i - x.get (w.start + (i - v.start)) else y.get i } := by
  unfold isub; rw [if_pos h]

theorem isub_get (y : Arr K) {v : View} (x : Arr K) {w : View} (h : v.len = w.len) :
    ∃ y', isub y v x w = some y' ∧ y'.len = y.len ∧
      ∀ i, y'.get i = if v.start ≤ i ∧ i < v.stop then y.get i - x.get (w.start + (i - v.start)) else y.get i :=
  ⟨_, isub_of_len h, rfl, fun _ => rfl⟩

/-- subtraction if the condition holds -/
def csub (c : Prop) [Decidable c] (a b : K) : K := if c then a - b else a

/-- entry `i` of the tridiagonal product, in the order of the operations -/
def triC [OfNat K 2] (n : Nat) (x : Nat → K) (i : Nat) : K := csub (1 ≤ i) (csub (i + 1 < n) (2 * x i) (x (i + 1))) (x (i - 1))

theorem poisson1d_triC [OfNat K 2] (x : Arr K) : ∃ y, poisson1d x = some y ∧ y.len = x.len ∧ ∀ i < x.len, y.get i = triC x.len x.get i := by
  unfold poisson1d
  have h1 : (slice x.len none (some (-1))) = ⟨0, x.len - 1⟩ := by
    simp only [slice, bound, Option.map_none, Option.map_some, Option.getD_none, Option.getD_some]
    rw [if_pos (by omega)]; congr 1; omega
  have h2 : (slice x.len (some 1) none) = ⟨min 1 x.len, x.len⟩ := by
    simp only [slice, bound, Option.map_none, Option.map_some, Option.getD_none, Option.getD_some]
    congr 1
  have hl : (View.mk 0 (x.len - 1)).len = (View.mk (min 1 x.len) x.len).len := by simp only [View.len]; omega
  rw [h1, h2]
  simp only [Option.bind_eq_bind]
  rw [isub_of_len hl]
  simp only [Option.bind_some]
  rw [isub_of_len hl.symm]
  refine ⟨_, rfl, rfl, fun i hi => ?_⟩
  simp only [scale, triC, csub]
  by_cases c1 : i + 1 < x.len
  · by_cases c2 : 1 ≤ i
    · rw [if_pos (by omega), if_pos (by omega), if_pos c2, if_pos c1]
      congr 3 <;> omega
    · rw [if_neg (by omega), if_pos (by omega), if_neg c2, if_pos c1]
      congr 2; omega
  · by_cases c2 : 1 ≤ i
    · rw [if_pos (by omega), if_neg (by omega), if_pos c2, if_neg c1]
      congr 2; omega
    · rw [if_neg (by omega), if_neg (by omega), if_neg c2, if_neg c1]

theorem block_unique {n b j i : Nat} (hj : j < n) : (i * n ≤ b * n + j ∧ b * n + j < (i + 1) * n) ↔ b = i := by
  constructor
  · rintro ⟨h1, h2⟩
    have h3 : i < b + 1 := by
      by_contra h; push Not at h
      have := Nat.mul_le_mul_right n h
      rw [Nat.add_mul] at this; omega
    have h4 : b < i + 1 := by
      by_contra h; push Not at h
      have := Nat.mul_le_mul_right n h
      omega
    omega
  · rintro rfl; rw [Nat.add_mul]; omega

/-- subtraction of the neighbours in the same block -/
def within (n : Nat) (x : Nat → K) (b j : Nat) (y : K) : K :=
  csub (1 ≤ j) (csub (j + 1 < n) y (x (b * n + j + 1))) (x (b * n + j - 1))

theorem poissonBlock_get (x y : Arr K) (n i : Nat) (hx : x.len = n * n) (hy : y.len = n * n) (hi : i < n) :
    ∃ y', poissonBlock x n i y = some y' ∧ y'.len = n * n ∧
      ∀ b j, j < n → y'.get (b * n + j) = if b = i then within n x.get b j (y.get (b * n + j)) else y.get (b * n + j) := by
  have hle : (i + 1) * n ≤ n * n := Nat.mul_le_mul_right n hi
  have hin : (i + 1) * n = i * n + n := Nat.succ_mul i n
  have hs : slice (n * n) (some ((i * n : Nat) : Int)) (some (((i + 1) * n : Nat) : Int)) = ⟨i * n, i * n + n⟩ := by
    simp only [slice, bound, Option.map_some, Option.getD_some, Int.toNat_natCast]
    rw [if_neg (by omega), if_neg (by omega), min_eq_left (by omega), min_eq_left hle, hin]
  unfold poissonBlock
  rw [hx, hy, hs]
  have hlen : (View.mk (i * n) (i * n + n)).len = n := by simp [View.len]
  have h1 : (View.mk (i * n) (i * n + n)).sub none (some (-1)) = ⟨i * n, i * n + (n - 1)⟩ := by
    simp only [View.sub, hlen, slice, bound, Option.map_none, Option.map_some, Option.getD_none, Option.getD_some]
    rw [if_pos (by omega)]; congr 1; omega
  have h2 : (View.mk (i * n) (i * n + n)).sub (some 1) none = ⟨i * n + 1, i * n + n⟩ := by
    simp only [View.sub, hlen, slice, bound, Option.map_none, Option.map_some, Option.getD_none, Option.getD_some]
    congr 1
    rw [if_neg (by omega)]; omega
  simp only [h1, h2]
  have hl : (View.mk (i * n) (i * n + (n - 1))).len = (View.mk (i * n + 1) (i * n + n)).len := by simp only [View.len]; omega
  simp only [Option.bind_eq_bind]
  rw [isub_of_len hl]
  simp only [Option.bind_some]
  rw [isub_of_len hl.symm]
  refine ⟨_, rfl, hy, fun b j hj => ?_⟩
  simp only
  have hu := block_unique (b := b) (i := i) hj
  rw [hin] at hu
  by_cases hb : b = i
  · subst hb
    simp only [if_true, within, csub]
    by_cases c1 : j + 1 < n
    · by_cases c2 : 1 ≤ j
      · rw [if_pos (by omega), if_pos (by omega), if_pos c2, if_pos c1]
        congr 3 <;> omega
      · rw [if_neg (by omega), if_pos (by omega), if_neg c2, if_pos c1]
        congr 2; omega
    · by_cases c2 : 1 ≤ j
      · rw [if_pos (by omega), if_neg (by omega), if_pos c2, if_neg c1]
        congr 2; omega
      · rw [if_neg (by omega), if_neg (by omega), if_neg c2, if_neg c1]
  · have hno : ¬ (i * n ≤ b * n + j ∧ b * n + j < i * n + n) := fun h => hb (hu.1 h)
    rw [if_neg (by omega), if_neg (by omega), if_neg hb]

theorem poissonBlocks_get (x : Arr K) (n : Nat) (hx : x.len = n * n) (k : Nat) : ∀ (i : Nat) (y : Arr K),
    y.len = n * n → i + k ≤ n →
    ∃ y', poissonBlocks x n i k y = some y' ∧ y'.len = n * n ∧
      ∀ b j, j < n → y'.get (b * n + j) =
        if i ≤ b ∧ b < i + k then within n x.get b j (y.get (b * n + j)) else y.get (b * n + j) := by
  induction k with
  | zero =>
    intro i y hy _
    exact ⟨y, rfl, hy, fun b j _ => by rw [if_neg (by omega)]⟩
  | succ k ih =>
    intro i y hy hik
    obtain ⟨y1, e1, l1, g1⟩ := poissonBlock_get x y n i hx hy (by omega)
    obtain ⟨y2, e2, l2, g2⟩ := ih (i + 1) y1 l1 (by omega)
    refine ⟨y2, by unfold poissonBlocks; rw [e1]; exact e2, l2, fun b j hj => ?_⟩
    rw [g2 b j hj, g1 b j hj]
    by_cases hb : b = i
    · subst hb
      rw [if_neg (by omega), if_pos rfl, if_pos (by omega)]
    · rw [if_neg hb]
      by_cases hc : i + 1 ≤ b ∧ b < i + 1 + k
      · rw [if_pos hc, if_pos (by omega)]
      · rw [if_neg hc, if_neg (by omega)]

/-- entry `(b, j)` of the five-point stencil, in the order of the operations -/
def fiveC [OfNat K 4] (n : Nat) (x : Nat → K) (b j : Nat) : K :=
  if b + 1 < n then
    csub (1 ≤ j) (csub (j + 1 < n) (csub (b + 1 < n) (csub (1 ≤ b) (4 * x (b * n + j)) (x ((b - 1) * n + j))) (x ((b + 1) * n + j)))
      (x (b * n + j + 1))) (x (b * n + j - 1))
  else
    csub (j + 1 < n) (csub (1 ≤ j) (csub (1 ≤ b) (4 * x (b * n + j)) (x ((b - 1) * n + j))) (x (b * n + j - 1))) (x (b * n + j + 1))

theorem poisson2d_fiveC [OfNat K 4] (x : Arr K) (n : Nat) (hx : x.len = n * n) :
    ∃ y, poisson2d x = some y ∧ y.len = n * n ∧ ∀ b j, b < n → j < n → y.get (b * n + j) = fiveC n x.get b j := by
  have hn : Nat.sqrt x.len = n := by rw [hx]; exact Nat.sqrt_eq n
  rcases Nat.lt_or_ge n 2 with h2 | h2
  · -- n = 0 or n = 1
    have : n = 0 ∨ n = 1 := by omega
    rcases this with rfl | rfl
    · unfold poisson2d
      rw [hn, hx]
      exact ⟨_, rfl, hx, fun b j hb => absurd hb (by omega)⟩
    · unfold poisson2d
      rw [hn, hx]
      refine ⟨_, rfl, hx, fun b j hb hj => ?_⟩
      obtain rfl : b = 0 := by omega
      obtain rfl : j = 0 := by omega
      simp [fiveC, csub, scale, slice, bound]
  · -- n ≥ 2
    obtain ⟨N, hN⟩ : ∃ N, N = n * n := ⟨_, rfl⟩
    obtain ⟨M, hM⟩ : ∃ M, M = (n - 1) * n := ⟨_, rfl⟩
    have hMN : M + n = N := by
      rw [hM, hN, Nat.sub_mul, Nat.one_mul]
      have : n ≤ n * n := Nat.le_mul_self n
      omega
    have hnM : n ≤ M := by rw [hM]; exact Nat.le_mul_of_pos_left n (by omega)
    have hNi : (n : Int) * n = (N : Int) := by rw [hN]; push_cast; rfl
    have hMi : ((n : Int) - 1) * n = (M : Int) := by
      have : (M : Int) = N - n := by omega
      rw [this, ← hNi]; ring
    have hx' : x.len = N := by rw [hx, hN]
    unfold poisson2d
    rw [hn]
    simp only [hNi, hMi]
    rw [hx']
    have s1 : slice N (some (n : Int)) none = ⟨n, N⟩ := by
      simp only [slice, bound, Option.map_none, Option.map_some, Option.getD_none, Option.getD_some]
      rw [if_neg (by omega)]; congr 1; omega
    have s2 : slice N none (some (-(n : Int))) = ⟨0, M⟩ := by
      simp only [slice, bound, Option.map_none, Option.map_some, Option.getD_none, Option.getD_some]
      rw [if_pos (by omega)]; congr 1; omega
    have s3 : slice N none (some ((n : Int) - 1)) = ⟨0, n - 1⟩ := by
      simp only [slice, bound, Option.map_none, Option.map_some, Option.getD_none, Option.getD_some]
      rw [if_neg (by omega)]; congr 1; omega
    have s4 : slice N (some 1) (some (n : Int)) = ⟨1, n⟩ := by
      simp only [slice, bound, Option.map_some, Option.getD_some]
      rw [if_neg (by omega), if_neg (by omega)]; congr 1 <;> omega
    have s5 : slice N (some ((M : Int) + 1)) none = ⟨M + 1, N⟩ := by
      simp only [slice, bound, Option.map_none, Option.map_some, Option.getD_none, Option.getD_some]
      rw [if_neg (by omega)]; congr 1; omega
    have s6 : slice N (some (M : Int)) (some (-1)) = ⟨M, N - 1⟩ := by
      simp only [slice, bound, Option.map_some, Option.getD_some]
      rw [if_neg (by omega), if_pos (by omega)]; congr 1 <;> omega
    have s7 : slice N (some (M : Int)) (some ((N : Int) - 1)) = ⟨M, N - 1⟩ := by
      simp only [slice, bound, Option.map_some, Option.getD_some]
      rw [if_neg (by omega), if_neg (by omega)]; congr 1 <;> omega
    have s8 : slice N (some (-(n : Int) + 1)) none = ⟨M + 1, N⟩ := by
      simp only [slice, bound, Option.map_none, Option.map_some, Option.getD_none, Option.getD_some]
      rw [if_pos (by omega)]; congr 1; omega
    rw [s1, s2, s3, s4, s5, s6, s7, s8]
    have l1 : (View.mk n N).len = (View.mk 0 M).len := by simp only [View.len]; omega
    have l2 : (View.mk 0 (n - 1)).len = (View.mk 1 n).len := by simp only [View.len]; omega
    have l3 : (View.mk (M + 1) N).len = (View.mk M (N - 1)).len := by simp only [View.len]; omega
    simp only [Option.bind_eq_bind]
    obtain ⟨y1, e1, n1, g1⟩ := isub_get (scale 4 x) x l1
    obtain ⟨y2, e2, n2, g2⟩ := isub_get y1 x l1.symm
    obtain ⟨y3, e3, n3, g3⟩ := isub_get y2 x l2
    obtain ⟨y4, e4, n4, g4⟩ := isub_get y3 x l2.symm
    have hy4 : y4.len = n * n := by rw [n4, n3, n2, n1]; exact hx
    obtain ⟨y5, e5, n5, g5⟩ := poissonBlocks_get x n hx (n - 2) 1 y4 hy4 (by omega)
    obtain ⟨y6, e6, n6, g6⟩ := isub_get y5 x l3
    obtain ⟨y7, e7, n7, g7⟩ := isub_get y6 x l3.symm
    simp only [e1, e2, e3, e4, e5, e6, e7, Option.bind_some]
    refine ⟨_, rfl, by rw [n7, n6, n5], fun b j hb hj => ?_⟩
    rw [g7, g6, g5 b j hj, g4, g3, g2, g1]
    simp only [scale]
    -- position of the block
    have hbn : b * n + n ≤ N := by
      have := Nat.mul_le_mul_right n (Nat.succ_le_of_lt hb)
      rw [Nat.succ_mul] at this; omega
    have hup : 1 ≤ b → (b - 1) * n + n = b * n := by
      intro h; rw [← Nat.succ_mul]; congr 1; omega
    have hdown : (b + 1) * n = b * n + n := Nat.succ_mul b n
    have hfirst : ¬ 1 ≤ b → b * n = 0 := by intro h; have : b = 0 := by omega
                                            rw [this, Nat.zero_mul]
    have hlast : ¬ b + 1 < n → b * n = M := by
      intro h
      have : b = n - 1 := by omega
      rw [this, hM]
    have hmid1 : 1 ≤ b → n ≤ b * n := fun h => Nat.le_mul_of_pos_left n h
    have hmid2 : b + 1 < n → b * n + n ≤ M := by
      intro h
      rw [← hdown, hM]; exact Nat.mul_le_mul_right n (by omega)
    unfold fiveC within csub
    generalize hp : b * n = p at *
    rw [hdown]
    by_cases b1 : 1 ≤ b
    · have q1 := hup b1
      have q2 := hmid1 b1
      simp only [if_pos b1]
      generalize (b - 1) * n = p1 at *
      by_cases b2 : b + 1 < n
      · have q3 := hmid2 b2
        simp only [if_pos b2]
        rw [if_neg (by omega : ¬ (M ≤ p + j ∧ _)), if_neg (by omega : ¬ (M + 1 ≤ p + j ∧ _)),
          if_pos (by omega : 1 ≤ b ∧ _), if_neg (by omega : ¬ (1 ≤ p + j ∧ p + j < n)),
          if_neg (by omega : ¬ (0 ≤ p + j ∧ p + j < n - 1)), if_pos (by omega : 0 ≤ p + j ∧ p + j < M),
          if_pos (by omega : n ≤ p + j ∧ p + j < N)]
        have e0 : 0 + (p + j - n) = p1 + j := by omega
        have e1 : n + (p + j - 0) = p + n + j := by omega
        rw [e0, e1]
      · have q3 := hlast b2
        simp only [if_neg b2]
        rw [if_neg (by omega : ¬ (1 ≤ b ∧ _)), if_neg (by omega : ¬ (1 ≤ p + j ∧ p + j < n)),
          if_neg (by omega : ¬ (0 ≤ p + j ∧ p + j < n - 1)), if_neg (by omega : ¬ (0 ≤ p + j ∧ p + j < M)),
          if_pos (by omega : n ≤ p + j ∧ p + j < N)]
        have e0 : 0 + (p + j - n) = p1 + j := by omega
        rw [e0]
        by_cases c1 : j + 1 < n
        · by_cases c2 : 1 ≤ j
          · rw [if_pos (by omega : M ≤ p + j ∧ _), if_pos (by omega : M + 1 ≤ p + j ∧ _), if_pos c1, if_pos c2]
            have e1 : M + (p + j - (M + 1)) = p + j - 1 := by omega
            have e2 : M + 1 + (p + j - M) = p + j + 1 := by omega
            rw [e1, e2]
          · rw [if_pos (by omega : M ≤ p + j ∧ _), if_neg (by omega : ¬ (M + 1 ≤ p + j ∧ _)), if_pos c1, if_neg c2]
            have e2 : M + 1 + (p + j - M) = p + j + 1 := by omega
            rw [e2]
        · by_cases c2 : 1 ≤ j
          · rw [if_neg (by omega : ¬ (M ≤ p + j ∧ _)), if_pos (by omega : M + 1 ≤ p + j ∧ _), if_neg c1, if_pos c2]
            have e1 : M + (p + j - (M + 1)) = p + j - 1 := by omega
            rw [e1]
          · rw [if_neg (by omega : ¬ (M ≤ p + j ∧ _)), if_neg (by omega : ¬ (M + 1 ≤ p + j ∧ _)), if_neg c1, if_neg c2]
    · have q1 := hfirst b1
      have b2 : b + 1 < n := by omega
      have q3 := hmid2 b2
      simp only [if_neg b1, if_pos b2]
      rw [if_neg (by omega : ¬ (M ≤ p + j ∧ _)), if_neg (by omega : ¬ (M + 1 ≤ p + j ∧ _)),
        if_neg (by omega : ¬ (1 ≤ b ∧ _)), if_pos (by omega : 0 ≤ p + j ∧ p + j < M),
        if_neg (by omega : ¬ (n ≤ p + j ∧ p + j < N))]
      have e0 : n + (p + j - 0) = p + n + j := by omega
      rw [e0]
      by_cases c1 : j + 1 < n
      · by_cases c2 : 1 ≤ j
        · rw [if_pos (by omega), if_pos (by omega), if_pos c2, if_pos c1]
          congr 3 <;> omega
        · rw [if_neg (by omega), if_pos (by omega), if_neg c2, if_pos c1]
          congr 2; omega
      · by_cases c2 : 1 ≤ j
        · rw [if_pos (by omega), if_neg (by omega), if_pos c2, if_neg c1]
          congr 2; omega
        · rw [if_neg (by omega), if_neg (by omega), if_neg c2, if_neg c1]

/-! ### In a ring -/

section
variable {K : Type} [Ring K]

theorem csub_ring (c : Prop) [Decidable c] (a b : K) : csub c a b = a - (if c then b else 0) := by
  unfold csub; split <;> simp

/-- entry `i` of the tridiagonal product -/
def tri (n : Nat) (x : Nat → K) (i : Nat) : K :=
  2 * x i - (if i + 1 < n then x (i + 1) else 0) - (if 1 ≤ i then x (i - 1) else 0)

theorem poisson1d_get (x : Arr K) : ∃ y, poisson1d x = some y ∧ y.len = x.len ∧ ∀ i < x.len, y.get i = tri x.len x.get i := by
  obtain ⟨y, h1, h2, h3⟩ := poisson1d_triC x
  refine ⟨y, h1, h2, fun i hi => ?_⟩
  rw [h3 i hi, triC, csub_ring, csub_ring, tri]

/-- entry `(b, j)` of the five-point stencil -/
def five (n : Nat) (x : Nat → K) (b j : Nat) : K :=
  4 * x (b * n + j) - (if 1 ≤ b then x ((b - 1) * n + j) else 0) - (if b + 1 < n then x ((b + 1) * n + j) else 0)
    - (if j + 1 < n then x (b * n + j + 1) else 0) - (if 1 ≤ j then x (b * n + j - 1) else 0)

theorem poisson2d_get (x : Arr K) (n : Nat) (hx : x.len = n * n) :
    ∃ y, poisson2d x = some y ∧ y.len = n * n ∧ ∀ b j, b < n → j < n → y.get (b * n + j) = five n x.get b j := by
  obtain ⟨y, h1, h2, h3⟩ := poisson2d_fiveC x n hx
  refine ⟨y, h1, h2, fun b j hb hj => ?_⟩
  rw [h3 b j hb hj, fiveC, five]
  by_cases c : b + 1 < n
  · simp only [if_pos c, csub_ring]
  · simp only [if_neg c, csub_ring, sub_zero]
    rw [sub_right_comm]

end

end Verif.Gallery
