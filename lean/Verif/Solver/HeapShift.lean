import Verif.Solver.HeapMinres
import Verif.Solver.Exact

/-!
# One iteration of MINRES with a shift, when the operator returns its argument

Used in `Verif.Solver.HeapProps` for a violation of C54.
-/

namespace Verif.Solver
open Scalar Vect

section
variable {S V : Type} [Scalar S] [Vect S V]
/-- `x` after one iteration, whatever the operator returns -/
theorem minresStepH_x (op : HOp V) (eps : S) (kw : MinresKwH S V) (itnlim : Nat) (beta1 : S) (s : MinresLoop S Nat) (calls : List V)
    (h : Heap V) (hs : MinresOk s h) (v r1 r2 y : Nat) (alfa bb : S) (arg : V) (ha : Heap V)
    (he : minresLanczosH op kw (s.itn + 1) s h = ((v, alfa, r1, r2, y, bb, arg), ha)) (hv : v < ha.next) (hbb : lt bb (lit 0) = false) :
    let gbar := s.sn * s.dbar - s.cs * alfa
    let gamma := pymax (normof2 gbar (sqrt bb)) eps
    (minresStepH op eps kw itnlim beta1 ⟨s, calls⟩ h).1.vars.x = s.x ∧
    (minresStepH op eps kw itnlim beta1 ⟨s, calls⟩ h).2.mem s.x = h.mem s.x + smul (gbar / gamma * s.phibar)
      (smul (lit 1 / gamma) (ha.mem v - smul s.epsln (h.mem s.w2) - smul (s.cs * s.dbar + s.sn * alfa) (h.mem s.w))) := by
  intro gbar gamma
  have hext := minresLanczosH_ext op kw (s.itn + 1) s h
  rw [he] at hext
  simp only at hext
  have kn := hext.next
  have hx := hs.x
  have hw := hs.w
  have hw2 := hs.w2
  unfold minresStepH
  simp only [bind_rd, bind_wr, bind_new, bind_appendCopy, bind_minresLanczosH, HeapM.ite_apply, HeapM.pure_apply, he, hbb, Bool.false_eq_true, if_false]
  refine ⟨trivial, ?_⟩
  rw [(appendCopy_ext _ _ _ _).mem _ (by simp only [Heap.next_upd, Heap.next_alloc]; omega), Heap.mem_upd_self]
  have n1 : ∀ a : V, (ha.alloc a).next = ha.next + 1 := fun _ => rfl
  have n2 : ∀ a b : V, ((ha.alloc a).alloc b).next = ha.next + 2 := fun _ _ => rfl
  have e1 : ∀ a b : V, ((ha.alloc a).alloc b).mem v = ha.mem v := fun a b => by
    rw [Heap.mem_alloc_lt _ _ (by rw [n1]; omega), Heap.mem_alloc_lt _ _ hv]
  have e2 : ∀ a b : V, ((ha.alloc a).alloc b).mem ha.next = a := fun a b => by
    rw [Heap.mem_alloc_lt _ _ (by rw [n1]; omega), Heap.mem_alloc_self]
  have e4 : ∀ a : V, (ha.alloc a).mem s.w = h.mem s.w := fun a => by
    rw [Heap.mem_alloc_lt _ _ (by omega), hext.mem _ hw]
  rw [Heap.mem_alloc_self, Heap.mem_alloc_lt _ _ (by rw [n2]; omega), Heap.mem_alloc_lt _ _ (by rw [n1]; omega),
    Heap.mem_alloc_lt _ _ (by omega), hext.mem _ hx, Heap.mem_alloc_self, e1, e2, e4, hext.mem _ hw2]

/-- the first Lanczos step when the operator returns its argument and there is no preconditioner -/
theorem minresLanczosH_same (op : HOp V) (hop : ∀ h l, op.same h l = true) (kw : MinresKwH S V) (hp : kw.precon = none)
    (s : MinresLoop S Nat) (h : Heap V) (hr : s.r2 < h.next) :
    let v := smul (lit 1 / s.beta) (h.mem s.y)
    let d := v - smul kw.shift v
    let r := smul (-dot d d / s.beta) (h.mem s.r2) + d
    ∃ r1 r2 y arg ha, minresLanczosH op kw 1 s h = ((h.next, dot d d, r1, r2, y, dot r r, arg), ha) ∧ h.next < ha.next ∧
      ha.mem h.next = d := by
  intro v d r
  unfold minresLanczosH
  simp only [bind_rd, bind_wr, bind_new, bind_call, bind_minresSubH, bind_preconOr, HeapM.pure_apply]
  have hd : decide (1 ≥ 2) = false := rfl
  have hc : call op h.next (h.alloc v) = (h.next, h.alloc v) := by
    unfold call
    rw [hop]
    rfl
  have hm : (h.alloc v).mem h.next = v := h.mem_alloc_self _
  rw [hd, hp]
  change ∃ r1 r2 y arg ha, _
  rw [hc]
  simp only [minresSubH, preconOr, HeapM.pure_apply]
  rw [hm]
  have m1 : ((h.alloc v).upd h.next (v - smul kw.shift v)).mem h.next = d := Heap.mem_upd_self _ _ _
  have m2 : ((h.alloc v).upd h.next (v - smul kw.shift v)).mem s.r2 = h.mem s.r2 := by
    rw [Heap.mem_upd_ne _ _ (by omega), Heap.mem_alloc_lt _ _ hr]
  have n1 : ((h.alloc v).upd h.next (v - smul kw.shift v)).next = h.next + 1 := rfl
  generalize (h.alloc v).upd h.next (v - smul kw.shift v) = hb at m1 m2 n1
  rw [m1, m2]
  change ∃ r1 r2 y arg ha, (((h.next, dot d d, _, _, _, dot ((((hb.alloc r).alloc _).alloc _).mem _) ((((hb.alloc r).alloc _).alloc _).mem _), _), _) : _ × _) = _ ∧ _
  have q1 : (hb.alloc r).mem hb.next = r := Heap.mem_alloc_self _ _
  have n2 : ∀ a : V, (hb.alloc a).next = hb.next + 1 := fun _ => rfl
  have n3 : ∀ a b : V, ((hb.alloc a).alloc b).next = hb.next + 2 := fun _ _ => rfl
  have q2 : ∀ a : V, ((hb.alloc r).alloc a).mem hb.next = r := fun a => by
    rw [Heap.mem_alloc_lt _ _ (by rw [n2]; omega), q1]
  have q3 : ∀ a b : V, (((hb.alloc r).alloc a).alloc b).mem hb.next = r := fun a b => by
    rw [Heap.mem_alloc_lt _ _ (by rw [n3]; omega), q2]
  rw [q2, q3, Heap.mem_alloc_self]
  refine ⟨_, _, _, _, _, rfl, ?_, ?_⟩
  · simp only [Heap.next_alloc]; omega
  · rw [Heap.mem_alloc_lt _ _ (by rw [n3]; omega), Heap.mem_alloc_lt _ _ (by rw [n2]; omega), Heap.mem_alloc_lt _ _ (by omega), m1]
end

/-- the system `(I + 3 I) x = 1`, one unknown; `same`: the operator returns its argument -/
theorem minresShift_run (same : Bool) (n : Nat) (self : MinresObj Fl (Vec ℝ)) :
    let kw : MinresKwH Fl (Vec ℝ) :=
      { shift := .fin (-3), check := false, itnlim := some 1, rtol := .fin 0, etol := .fin 0 }
    let h : Heap (Vec ℝ) := ⟨fun _ => .fin 1, 1, []⟩
    (∃ r h', minresSolveH ⟨id, fun _ _ => same, fun _ _ _ => rfl⟩ (.fin (1/1000)) n self 0 kw h = (.ok r, h') ∧
      h'.mem r.1.x = .fin (if same then 4/25 else 1/4)) := by
  intro kw h
  have hst : minresStart kw.toKw (h.mem 0) = (.fin 1, .fin 1) := by
    simp [minresStart, kw, h, MinresKwH.toKw, HOp.fn?, applyPrecon, gt, Fl.fin_sqrt, Vec.fin_dot]
  have hen : minresEntry kw.toKw (h.mem 0) = (0, false) := by
    have h1 : lt (Fl.fin 1) (Fl.fin 0) = false := by rw [← Bool.not_eq_true, Fl.fin_lt]; norm_num
    have h2 : feq (Fl.fin 1) (Fl.fin 0) = false := by
      unfold feq; rw [Bool.and_eq_false_iff]; left; rw [← Bool.not_eq_true, Fl.fin_le]; norm_num
    simp [minresEntry, kw, h, MinresKwH.toKw, HOp.fn?, applyPrecon, Vec.fin_dot, h1, h2]
  cases hi : minresInitH kw self 0 h with
  | mk out h1 =>
  obtain ⟨st, beta1, done⟩ := out
  obtain ⟨k1, k2, k3, k4, k5⟩ := minresInitH_spec kw self 0 h Nat.one_pos st beta1 done h1 hi
  obtain ⟨s, calls⟩ := st
  simp only at k1 k2 k5
  subst k2
  rw [hst] at k3
  rw [hen] at k4
  simp only at k3 k4
  subst k3 k4
  simp only [MinresLoop.at, minresInit, hst, hen, MinresLoop.mk.injEq] at k5
  obtain ⟨g1, g2, g3, g4, g5, g6, g7, g8, g9, g10, g11, g12, g13, g14, g15, g16, g17, g18, g19, g20, g21, g22, g23, g24, g25, g26, g27, g28, g29, g30, g31, -⟩ := k5
  unfold minresSolveH
  simp only [bind_minresInitH, bind_minresLanczosH, bind_minresLoopH, HeapM.ite_apply, HeapM.pure_apply, hi, Bool.false_eq_true, if_false]
  rw [if_neg (by simp [kw])]
  have hl : kw.itnlim.getD (5 * n) = 1 := rfl
  rw [hl]
  refine ⟨_, _, rfl, ?_⟩
  have hloop : minresLoopH ⟨id, fun _ _ => same, fun _ _ _ => rfl⟩ (.fin (1/1000)) kw 1 (Fl.fin 1) ⟨s, []⟩ h1 = 
      minresStepH ⟨id, fun _ _ => same, fun _ _ _ => rfl⟩ (.fin (1/1000)) kw 1 (Fl.fin 1) ⟨s, []⟩ h1 := by
    unfold minresLoopH
    rw [whileLoop_of_cont (by simp [minresCont, g29, g28]), whileLoop_of_not]
    simp only [minresCont]
    rw [minresStepH_itn, g28]
    simp
  rw [hloop]
  simp only [minresResultH]
  clear hloop hi hst hen
  have x4 := k1.r2
  have hr2 : h1.mem s.r2 = .fin 1 := g4
  have hL : ∃ v r1 r2 y arg ha, minresLanczosH ⟨id, fun _ _ => same, fun _ _ _ => rfl⟩ kw (s.itn + 1) s h1 =
      ((v, .fin (if same then 16 else 4), r1, r2, y, .fin (if same then 144 else 0), arg), ha) ∧ v < ha.next ∧
      ha.mem v = .fin (if same then 4 else 1) := by
    rw [g28]
    have hv : smul (lit 1 / s.beta) (h1.mem s.y) = Vec.fin 1 := by
      rw [g8, g2, Fl.lit_eq, Fl.fin_div _ (by norm_num)]; simp
    cases same
    · cases ho : minresLanczosH ⟨id, fun _ _ => false, fun _ _ _ => rfl⟩ kw (0 + 1) s h1 with
      | mk out ha =>
      obtain ⟨v, alfa, r1, r2, y, bb, arg⟩ := out
      obtain ⟨l1, -, -, -, -, -, -, -, l9, -⟩ := minresLanczosH_spec _ (fun _ _ => rfl) kw 1 s h1 k1 [] v r1 r2 y alfa bb arg ha ho
      have f1 : (MinresLoop.at s h1 []).beta = s.beta := rfl
      have f2 : (MinresLoop.at s h1 []).y = h1.mem s.y := rfl
      have f3 : (MinresLoop.at s h1 []).r2 = h1.mem s.r2 := rfl
      have f4 : kw.toKw.shift = .fin (-3) := rfl
      have f5 : kw.toKw.precon = none := rfl
      simp only [minresLanczos, f1, f2, f3, f4, f5, hv, applyPrecon, id] at l1
      rw [hr2, g8] at l1
      simp [Vec.fin_dot, Fl.fin_div] at l1
      obtain ⟨l1, l2, l3, l4, l5⟩ := l1
      refine ⟨v, r1, r2, y, arg, ha, ?_, l9, by rw [← l1]; simp⟩
      rw [← l2, ← l5]; norm_num
    · obtain ⟨r1, r2, y, arg, ha, l1, l2, l3⟩ := minresLanczosH_same (⟨id, fun _ _ => true, fun _ _ _ => rfl⟩ : HOp (Vec ℝ)) (fun _ _ => rfl) kw rfl s h1 x4
      have f4 : kw.shift = .fin (-3) := rfl
      rw [hv, f4] at l1 l3
      rw [hr2, g8] at l1
      refine ⟨_, r1, r2, y, arg, ha, l1.trans ?_, l2, l3.trans ?_⟩
      · simp [Vec.fin_dot, Fl.fin_div]; norm_num
      · simp; norm_num
  obtain ⟨v, r1, r2, y, arg, ha, l1, l2, l3⟩ := hL
  have hlt : lt (.fin (if same then 144 else 0) : Fl) (lit 0) = false := by
    rw [← Bool.not_eq_true, Fl.lit_eq, Fl.fin_lt]; cases same <;> norm_num
  obtain ⟨q1, q2⟩ := minresStepH_x ⟨id, fun _ _ => same, fun _ _ _ => rfl⟩ (.fin (1/1000)) kw 1 (.fin 1) s [] h1 k1 v r1 r2 y _ _ arg ha
    l1 l2 hlt
  rw [q1, q2, l3, g1, g5, g6, g9, g10, g11, g16, g17]
  have s144 : Real.sqrt 144 = 12 := by rw [show (144 : ℝ) = 12 ^ 2 by norm_num]; exact Real.sqrt_sq (by norm_num)
  have s400 : Real.sqrt 400 = 20 := by rw [show (400 : ℝ) = 20 ^ 2 by norm_num]; exact Real.sqrt_sq (by norm_num)
  have s16 : Real.sqrt 16 = 4 := by rw [show (16 : ℝ) = 4 ^ 2 by norm_num]; exact Real.sqrt_sq (by norm_num)
  have z0 : (zeros : Vec ℝ) = .fin 0 := rfl
  cases same
  · simp only [Bool.false_eq_true, if_false, Fl.lit_eq, z0]
    simp [normof2, Fl.fin_sqrt]
    norm_num [s16, Fl.fin_sqrt]
    rw [Fl.fin_div _ (by norm_num), Fl.fin_div _ (by norm_num)]
    simp
  · simp only [if_true, Fl.lit_eq, z0]
    simp [normof2, Fl.fin_sqrt, s144]
    norm_num [s400, Fl.fin_sqrt]
    rw [Fl.fin_div _ (by norm_num), Fl.fin_div _ (by norm_num)]
    simp
    norm_num

end Verif.Solver
