import Verif.Lbfgs.Spec
import Mathlib.Tactic.Linarith
import Mathlib.Tactic.Ring
import Mathlib.Algebra.Order.Ring.Abs
import Mathlib.Algebra.Order.Group.Int

/-!
# The ring buffer represents the list of the most recent pairs
-/

namespace Verif.Lbfgs
open Verif.Solver Scalar Vect

variable {S V : Type} [Scalar S] [Vect S V]

/-- contents of a slot -/
def LB.slot (st : LB S V) (k : Nat) : Option (V × V × S) := (st.ys k).map fun t => (st.s k, st.y k, t)

/-- `st` represents the list `L` of pairs with their inner products, newest first. -/
structure Rep (st : LB S V) (L : List (V × V × S)) : Prop where
  insert_lt : st.insert < st.npairs
  len : L.length ≤ st.npairs
  slots : ∀ j < st.npairs, st.slot (st.idx ((st.insert : Int) - 1 - j)) = L[j]?
  gamma : st.scaling = false → st.gamma = lit 1
  thr : st.threshold = lit (1 / 10 ^ 20)

section idx
variable (st : LB S V) (hn : 0 < st.npairs)
include hn

theorem idx_lt (a : Int) : st.idx a < st.npairs := by
  unfold LB.idx
  have h1 := Int.emod_nonneg a (by omega : (st.npairs : Int) ≠ 0)
  have h2 := Int.emod_lt_of_pos a (by omega : (0 : Int) < st.npairs)
  omega

theorem idx_small {k : Nat} (h : k < st.npairs) : st.idx (k : Int) = k := by
  unfold LB.idx
  rw [Int.emod_eq_of_lt (by omega) (by omega)]; rfl

theorem idx_add (a : Int) : st.idx (a + st.npairs) = st.idx a := by
  unfold LB.idx; rw [Int.add_emod_right]

theorem idx_sub (a : Int) : st.idx (a - st.npairs) = st.idx a := by
  unfold LB.idx; rw [Int.sub_emod_right]

theorem idx_inj {a b : Int} (h : st.idx a = st.idx b) (hab : |a - b| < st.npairs) : a = b := by
  unfold LB.idx at h
  have h1 := Int.emod_nonneg a (by omega : (st.npairs : Int) ≠ 0)
  have h2 := Int.emod_nonneg b (by omega : (st.npairs : Int) ≠ 0)
  have h3 : a % (st.npairs : Int) = b % (st.npairs : Int) := by omega
  have h4 := Int.emod_emod_of_dvd (a - b) (dvd_refl (st.npairs : Int))
  have h5 : (a - b) % (st.npairs : Int) = 0 := Int.emod_eq_emod_iff_emod_sub_eq_zero.1 h3
  obtain ⟨c, hc⟩ := Int.dvd_of_emod_eq_zero h5
  have hp : (0 : Int) < st.npairs := by omega
  by_cases hc0 : c = 0
  · rw [hc0, mul_zero] at hc; omega
  · exfalso
    have : (st.npairs : Int) ≤ |a - b| := by
      rw [hc, abs_mul, abs_of_pos hp]
      exact le_mul_of_one_le_right hp.le (Int.one_le_abs hc0)
    omega

theorem idx_shift (a : Int) : st.idx ((st.idx a : Nat) - 1 - (0 : Int)) = st.idx (a - 1) := by
  unfold LB.idx
  have h1 := Int.emod_nonneg a (by omega : (st.npairs : Int) ≠ 0)
  rw [Int.toNat_of_nonneg h1, sub_zero, Int.emod_sub_emod]

theorem idx_shift' (a j : Int) : st.idx ((st.idx a : Nat) - 1 - j) = st.idx (a - 1 - j) := by
  unfold LB.idx
  have h1 := Int.emod_nonneg a (by omega : (st.npairs : Int) ≠ 0)
  rw [Int.toNat_of_nonneg h1, sub_sub, sub_sub, Int.emod_sub_emod]
end idx

theorem rep_init (npairs : Nat) (scaling : Bool) (junk : Junk S V) (h : 0 < npairs) :
    Rep (LB.init npairs scaling junk) [] :=
  ⟨h, Nat.zero_le _, fun _ _ => by simp [LB.init, LB.slot], fun _ => rfl, rfl⟩

theorem rep_restart {st : LB S V} {L} (h : Rep st L) (junk : Junk S V) : Rep (st.restart junk) [] :=
  ⟨Nat.lt_of_le_of_lt (Nat.zero_le _) h.insert_lt, Nat.zero_le _, fun _ _ => by simp [LB.restart, LB.slot], h.gamma, h.thr⟩

theorem rep_store {st : LB S V} {L} (h : Rep st L) (s y : V) :
    Rep (st.store s y) (if accepted s y then ((s, y, dot s y) :: L).take st.npairs else L) := by
  have hn : 0 < st.npairs := Nat.lt_of_le_of_lt (Nat.zero_le _) h.insert_lt
  unfold LB.store accepted
  rw [← h.thr]
  simp only
  by_cases hle : le (dot s y) st.threshold = true
  · simp only [hle, Bool.not_true, Bool.false_eq_true, if_false, if_true]; exact h
  · have hle' : le (dot s y) st.threshold = false := by simpa using hle
    simp only [hle', Bool.not_false, Bool.false_eq_true, if_false, if_true]
    refine ⟨idx_lt st hn ((st.insert : Int) + 1), by simp, fun j hj => ?_, h.gamma, h.thr⟩
    change LB.slot _ (st.idx (((st.idx ((st.insert : Int) + 1) : Nat) : Int) - 1 - j)) = _
    rw [idx_shift' st hn]
    have e : (st.insert : Int) + 1 - 1 - j = st.insert - j := by ring
    rw [e]
    cases j with
    | zero =>
      simp only [Nat.cast_zero, sub_zero, idx_small st hn h.insert_lt]
      rw [List.getElem?_take, if_pos hn]
      simp [LB.slot]
    | succ j =>
      have hne : st.idx ((st.insert : Int) - ((j + 1 : Nat) : Int)) ≠ st.insert := by
        intro he
        rw [← idx_small st hn h.insert_lt, idx_small st hn h.insert_lt] at he
        have := idx_inj st hn (a := (st.insert : Int) - ((j + 1 : Nat) : Int)) (b := (st.insert : Int))
          (by rw [he, idx_small st hn h.insert_lt]) (by
            have : (st.insert : Int) - ((j + 1 : Nat) : Int) - st.insert = -((j + 1 : Nat) : Int) := by ring
            rw [this, abs_neg, abs_of_nonneg (by omega)]; exact_mod_cast hj)
        omega
      have hslot : LB.slot { st with
          s := Function.update st.s st.insert s, y := Function.update st.y st.insert y,
          ys := Function.update st.ys st.insert (some (dot s y)), insert := st.idx ((st.insert : Int) + 1) }
          (st.idx ((st.insert : Int) - ((j + 1 : Nat) : Int))) =
          st.slot (st.idx ((st.insert : Int) - ((j + 1 : Nat) : Int))) := by
        simp only [LB.slot, Function.update_of_ne hne]
      rw [hslot, List.getElem?_take, if_pos hj, List.getElem?_cons_succ]
      have := h.slots j (Nat.lt_of_succ_lt hj)
      rw [← this]
      congr 2
      push_cast; ring

theorem updateGamma_state (st : LB S V) (f : S → V → V) (r : V) :
    ∃ gamma, (st.updateGamma f r).2 = { st with gamma := gamma } ∧ (st.scaling = false → gamma = st.gamma) := by
  unfold LB.updateGamma
  by_cases hs : st.scaling = true
  · simp only [hs, if_true]
    cases st.ys (st.idx ((st.insert : Int) - 1)) with
    | none => exact ⟨st.gamma, (by rw [← hs]), (by simp)⟩
    | some t => exact ⟨_, (by rw [← hs]), (by simp)⟩
  · have hs' : st.scaling = false := by simpa using hs
    rw [hs', if_neg (by simp)]
    exact ⟨st.gamma, (by rw [← hs']), fun _ => rfl⟩

theorem invMatvec_state (st : LB S V) (v : V) : ∃ alpha gamma, (st.invMatvec v).2 = { st with alpha := alpha, gamma := gamma } ∧
    (st.scaling = false → gamma = st.gamma) := by
  unfold LB.invMatvec
  simp only
  set p := (List.range st.npairs).foldl (fun p (i : Nat) => invStep1 st p (st.idx ((st.insert : Int) - 1 - i))) (v, st.alpha)
  obtain ⟨g, e, hg⟩ := updateGamma_state { st with alpha := p.2 } (fun gamma q => smul gamma q) p.1
  exact ⟨p.2, g, e, hg⟩

theorem cmpMatvec_state (solve : LinSolve S) (st : LB S V) (v : V) : ∃ gamma, (st.cmpMatvec solve v).2 = { st with gamma := gamma } ∧
    (st.scaling = false → gamma = st.gamma) := by
  obtain ⟨g, e, hg⟩ := updateGamma_state st (fun gamma q => vdiv q gamma) v
  refine ⟨g, ?_, hg⟩
  rw [← e]
  unfold LB.cmpMatvec
  simp only
  split
  · cases solve _ _ _ <;> rfl
  · rfl

theorem rep_matvec {st : LB S V} {L} (h : Rep st L) (cls : Class) (solve : LinSolve S) (v : V) :
    Rep (st.matvec cls solve v).2 L := by
  cases cls with
  | inverse =>
    obtain ⟨a, g, e, hg⟩ := invMatvec_state st v
    change Rep (st.invMatvec v).2 L
    rw [e]
    exact ⟨h.insert_lt, h.len, h.slots, fun hs => (hg hs).trans (h.gamma hs), h.thr⟩
  | forward => exact h
  | compact =>
    obtain ⟨g, e, hg⟩ := cmpMatvec_state solve st v
    change Rep (st.cmpMatvec solve v).2 L
    rw [e]
    exact ⟨h.insert_lt, h.len, h.slots, fun hs => (hg hs).trans (h.gamma hs), h.thr⟩

/-- a pair with its inner product -/
def withYs (p : V × V) : V × V × S := (p.1, p.2, dot p.1 p.2)

theorem exec_const (cls : Class) (solve : LinSolve S) (st : LB S V) (c : Cmd S V) :
    (st.exec cls solve c).npairs = st.npairs ∧ (st.exec cls solve c).scaling = st.scaling := by
  cases c with
  | store s y => simp only [LB.exec, LB.store]; split <;> exact ⟨rfl, rfl⟩
  | restart j => exact ⟨rfl, rfl⟩
  | product v =>
    cases cls with
    | inverse =>
      obtain ⟨a, g, e, hg⟩ := invMatvec_state st v
      change (st.invMatvec v).2.npairs = _ ∧ (st.invMatvec v).2.scaling = _
      rw [e]; exact ⟨rfl, rfl⟩
    | forward => exact ⟨rfl, rfl⟩
    | compact =>
      obtain ⟨g, e, hg⟩ := cmpMatvec_state solve st v
      change (st.cmpMatvec solve v).2.npairs = _ ∧ (st.cmpMatvec solve v).2.scaling = _
      rw [e]; exact ⟨rfl, rfl⟩

theorem rep_run (cls : Class) (solve : LinSolve S) (cmds : List (Cmd S V)) : ∀ (st : LB S V) (acc : List (V × V)),
    Rep st ((acc.take st.npairs).map withYs) →
    Rep (st.run cls solve cmds) (((history acc cmds).take st.npairs).map withYs) ∧
      (st.run cls solve cmds).npairs = st.npairs ∧ (st.run cls solve cmds).scaling = st.scaling := by
  induction cmds with
  | nil => intro st acc h; exact ⟨h, rfl, rfl⟩
  | cons c cmds ih =>
    intro st acc h
    obtain ⟨c1, c2⟩ := exec_const cls solve st c
    have step : ∀ acc', Rep (st.exec cls solve c) ((acc'.take st.npairs).map withYs) →
        Rep ((st.exec cls solve c).run cls solve cmds) (((history acc' cmds).take st.npairs).map withYs) ∧
        ((st.exec cls solve c).run cls solve cmds).npairs = st.npairs ∧
        ((st.exec cls solve c).run cls solve cmds).scaling = st.scaling := by
      intro acc' h'
      have := ih (st.exec cls solve c) acc' (by rw [c1]; exact h')
      rw [c1, c2] at this
      exact this
    change Rep ((st.exec cls solve c).run cls solve cmds) _ ∧ _
    cases c with
    | store s y =>
      refine step _ ?_
      have := rep_store h s y
      change Rep (st.store s y) _
      by_cases ha : accepted s y = true
      · simp only [ha, if_true] at this ⊢
        have e : (((s, y, dot s y) :: (acc.take st.npairs).map withYs).take st.npairs : List (V × V × S)) =
            (((s, y) :: acc).take st.npairs).map withYs := by
          rw [List.map_take, List.map_take]
          change _ = (withYs (s, y) :: acc.map withYs).take _
          cases hn : st.npairs with
          | zero => simp
          | succ n =>
            simp only [List.take_succ_cons, List.take_take, withYs]
            congr 2; omega
        rw [e] at this
        exact this
      · have ha' : accepted s y = false := by simpa using ha
        simp only [ha', Bool.false_eq_true, if_false] at this ⊢
        exact this
    | restart j => exact step [] (by rw [List.take_nil, List.map_nil]; exact rep_restart h j)
    | product v => exact step acc (rep_matvec h cls solve v)

end Verif.Lbfgs
