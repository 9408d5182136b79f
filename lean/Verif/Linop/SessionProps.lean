import Verif.Linop.Session
import Verif.Linop.Props2

/-!
# C65: sessions on operators are sessions on matrices
-/

set_option linter.unusedSectionVars false

namespace Verif.Linop

variable {K : Type} [Field K] [StarRing K] [DTypes K] [DecidableEq K]

/-- related values; `ops` and `mats` are the operators built so far and their matrices -/
inductive VRel (ops : List Nat) (mats : List (Mat K)) : Except Err (PyVal K) → Except Err (SVal K) → Prop
  | err (e : Err) : VRel ops mats (.error e) (.error e)
  | op (j r : Nat) (A : Mat K) : ops[j]? = some r → mats[j]? = some A → VRel ops mats (.ok (.op r)) (.ok (.mat A))
  | arr (x : Arr K) : x.Typed → VRel ops mats (.ok (.arr x)) (.ok (.arr x))
  | arr2 (A : NdArray2 K) : (Mat.ofNd A).Typed → VRel ops mats (.ok (.arr2 A)) (.ok (.arr2 A))
  | num (a : K) (ka : DKind) : a ∈ (DTypes.sub ka : Subring K) → VRel ops mats (.ok (.num a ka)) (.ok (.num a ka))
  | none : VRel ops mats (.ok .none) (.ok .none)
  | other : VRel ops mats (.ok .other) (.ok .other)

variable {ops : List Nat} {mats : List (Mat K)}

theorem VRel.mono {v : Except Err (PyVal K)} {w : Except Err (SVal K)} (h : VRel ops mats v w) (xo : List Nat) (xm : List (Mat K)) :
    VRel (ops ++ xo) (mats ++ xm) v w := by
  cases h with
  | err e => exact .err e
  | op j r A h1 h2 => exact .op j r A (getElem?_append_some h1) (getElem?_append_some h2)
  | arr x h => exact .arr x h
  | arr2 x h => exact .arr2 x h
  | num a ka h => exact .num a ka h
  | none => exact .none
  | other => exact .other

/-- the outcome of a statement -/
def Post (ops : List Nat) (mats : List (Mat K)) (p : Except Err (PyVal K) × SessSt K) (q : Except Err (SVal K)) : Prop :=
  ∃ xo xm, ReachTotal (ops ++ xo) p.2.heap (mats ++ xm) ∧ VRel (ops ++ xo) (mats ++ xm) p.1 q

theorem post_same {s : SessSt K} (R : ReachTotal ops s.heap mats) {v : Except Err (PyVal K)} {w : Except Err (SVal K)}
    (h : VRel ops mats v w) {c : Cnt} : Post ops mats (v, ⟨s.heap, c⟩) w :=
  ⟨[], [], by simpa using R, by simpa using h⟩

theorem exec_error {h : Heap K} (R : ReachTotal ops h mats) {c : Cmd K} {e : Err}
    (he : c.exec ops h = .error e) : c.spec mats = .error e := by
  obtain ⟨D, S, I, L, hS, hE⟩ := R.inv
  exact exec_err I hS hE L he

theorem post_make {s : SessSt K} (R : ReachTotal ops s.heap mats) (c : Cmd K) (w : c.WF mats) (hc : c.Complete)
    {f : Heap K → Except Err (Nat × Heap K)} (hf : f s.heap = c.exec ops s.heap) {q : Except Err (SVal K)}
    (hq : q = (c.spec mats).map SVal.mat) : Post ops mats (Sess.make f s) q := by
  unfold Sess.make
  rw [hf]
  cases he : c.exec ops s.heap with
  | error e =>
    rw [hq, exec_error R he]
    exact post_same R (.err e)
  | ok p =>
    obtain ⟨A, hA, R'⟩ := R.step w hc he
    rw [hq, hA]
    refine ⟨[p.1], [A], R', .op ops.length p.1 A (by simp) ?_⟩
    simp [R.reach.len]

theorem look_of {j r : Nat} (h : ops[j]? = some r) : look ops j = .ok r := by simp [look, h]
theorem mlook_of {j : Nat} {A : Mat K} (h : mats[j]? = some A) : mlook mats j = .ok A := by simp [mlook, h]

theorem app_arr_typed {A : Mat K} (hA : A.Typed) {x : Arr K} (hx : x.Typed) : (⟨A.kind.join x.kind, A.app x.data⟩ : Arr K).Typed :=
  Mat.app_typed hA hx

theorem post_vector {s : SessSt K} (R : ReachTotal ops s.heap mats) {j r : Nat} {A : Mat K} (hr : ops[j]? = some r)
    (hA : mats[j]? = some A) {x : Arr K} (hx : x.Typed) (extra : Nat) :
    Post ops mats (mulVector extra r x s)
      (if x.data.length = A.cols then .ok (.arr ⟨A.kind.join x.kind, A.app x.data⟩) else .error .valueError) := by
  obtain ⟨Rep, hTy⟩ := R.reach.represents hr hA
  have hT := R.total hr hA
  change Post ops mats (Sess.bind (Sess.act fun h => run h (h.length + extra) r x) _ s) _
  by_cases hl : x.data.length = A.cols
  · obtain ⟨c', hc⟩ := hT (s.heap.length + extra) x s.cnt (by omega) hx hl
    simp only [Sess.bind, Sess.act, hc, Sess.pure]
    rw [if_pos hl]
    exact post_same R (.arr _ (app_arr_typed hTy hx))
  · obtain ⟨o, ho, h1, -⟩ := Rep.shape
    have hlt : r < s.heap.length := (List.getElem?_eq_some_iff.1 ho).1
    obtain ⟨f, hf⟩ : ∃ f, s.heap.length + extra = f + 1 := ⟨s.heap.length + extra - 1, by omega⟩
    have := C05_wrong_size s.heap r o ho x (by rw [h1]; exact hl) f s.cnt
    simp only [Sess.bind, Sess.act, hf]
    rw [if_neg hl]
    cases hrun : run s.heap (f + 1) r x s.cnt with
    | mk res c' =>
      rw [hrun] at this
      simp only at this
      subst this
      exact post_same R (.err _)

theorem flat_typed {A : NdArray2 K} (h : (Mat.ofNd A).Typed) : A.flat.Typed := by
  intro a ha
  simp only [NdArray2.flat, List.mem_flatMap, List.mem_map, List.mem_range] at ha
  obtain ⟨i, hi, j, hj, rfl⟩ := ha
  exact h i hi j hj

theorem flat_length (A : NdArray2 K) : A.flat.data.length = A.rows * A.cols := by
  simp [NdArray2.flat, List.length_flatMap]

theorem flat_rowMajor (X : NdArray2 K) : X.flat.data = rowMajor X := by
  unfold NdArray2.flat rowMajor
  generalize X.rows = m
  dsimp only
  induction m with
  | zero => simp
  | succ m ih =>
    rw [List.range_succ, List.flatMap_append, ih, Nat.succ_mul, List.range_add, List.map_append]
    congr 1
    simp only [List.flatMap_cons, List.flatMap_nil, List.append_nil, List.map_map]
    refine List.map_congr_left fun j hj => ?_
    have hj := List.mem_range.1 hj
    have h0 : 0 < X.cols := by omega
    simp only [Function.comp]
    rw [Nat.mul_comm m, Nat.mul_add_div h0, Nat.div_eq_of_lt hj, Nat.mul_add_mod, Nat.mod_eq_of_lt hj, Nat.add_zero]

theorem post_dunderMul {s : SessSt K} (R : ReachTotal ops s.heap mats) {j r : Nat} {A : Mat K} (hr : ops[j]? = some r)
    (hA : mats[j]? = some A) {v : PyVal K} {w : SVal K} (hv : VRel ops mats (.ok v) (.ok w)) (extra : Nat) :
    Post ops mats (dunderMul extra r v s) (smulSpec A w) := by
  cases hv with
  | op k t B h1 h2 =>
    refine post_make R (.mul j k) trivial trivial ?_ ?_
    · simp [Cmd.exec, look_of hr, look_of h1, bind, Except.bind]
    · simp only [Cmd.spec, mlook_of hA, mlook_of h2, bind, Except.bind, smulSpec]
      split <;> rfl
  | arr x h => exact post_vector R hr hA h extra
  | arr2 X h =>
    have := post_vector R hr hA (flat_typed h) extra
    rw [flat_length, flat_rowMajor] at this
    exact this
  | num a ka h =>
    refine post_make R (.smul j a ka) h trivial ?_ ?_
    · simp [Cmd.exec, look_of hr, bind, Except.bind]
    · simp [Cmd.spec, mlook_of hA, bind, Except.bind, smulSpec, Except.map]
  | none => exact post_same R (.err _)
  | other => exact post_same R (.err _)

theorem post_T {s : SessSt K} (R : ReachTotal ops s.heap mats) {j r : Nat} {A : Mat K} (hr : ops[j]? = some r)
    (hA : mats[j]? = some A) : Post ops mats (attrT r s) (.ok (.mat A.T)) := by
  obtain ⟨⟨t, ht, -⟩, -⟩ := C02_transpose_adjoint_total R hr hA
  have hex : (Cmd.T j).exec ops s.heap = .ok (t, s.heap) := by simp [Cmd.exec, look_of hr, ht, bind, Except.bind]
  have hsp : (Cmd.T j).spec mats = .ok A.T := by simp [Cmd.spec, mlook_of hA, bind, Except.bind]
  obtain ⟨B, hB, R'⟩ := R.step (c := .T j) trivial trivial hex
  rw [hsp] at hB; cases hB
  refine ⟨[t], [A.T], R', ?_⟩
  simp only [attrT, ht]
  exact .op ops.length t _ (by simp) (by simp [R.reach.len])

theorem reach_H {h : Heap K} (R : ReachTotal ops h mats) {j r : Nat} {A : Mat K} (hr : ops[j]? = some r)
    (hA : mats[j]? = some A) : ∃ t, getH h r = some t ∧ ReachTotal (ops ++ [t]) h (mats ++ [A.H]) := by
  obtain ⟨-, t, ht, -⟩ := C02_transpose_adjoint_total R hr hA
  have hex : (Cmd.H j).exec ops h = .ok (t, h) := by simp [Cmd.exec, look_of hr, ht, bind, Except.bind]
  have hsp : (Cmd.H j).spec mats = .ok A.H := by simp [Cmd.spec, mlook_of hA, bind, Except.bind]
  obtain ⟨B, hB, R'⟩ := R.step (c := .H j) trivial trivial hex
  rw [hsp] at hB; cases hB
  exact ⟨t, ht, R'⟩

theorem post_H {s : SessSt K} (R : ReachTotal ops s.heap mats) {j r : Nat} {A : Mat K} (hr : ops[j]? = some r)
    (hA : mats[j]? = some A) : Post ops mats (attrH r s) (.ok (.mat A.H)) := by
  obtain ⟨t, ht, R'⟩ := reach_H R hr hA
  refine ⟨[t], [A.H], R', ?_⟩
  simp only [attrH, ht]
  exact .op ops.length t _ (by simp) (by simp [R.reach.len])

theorem post_rmatvec {s : SessSt K} (R : ReachTotal ops s.heap mats) {j r : Nat} {A : Mat K} (hr : ops[j]? = some r)
    (hA : mats[j]? = some A) {v : PyVal K} {w : SVal K} (hv : VRel ops mats (.ok v) (.ok w)) (extra : Nat) :
    Post ops mats (pyRmatvec extra r v s) (smulSpec A.H w) := by
  obtain ⟨t, ht, R'⟩ := reach_H R hr hA
  simp only [pyRmatvec, ht]
  obtain ⟨xo, xm, h1, h2⟩ := post_dunderMul R' (j := ops.length) (r := t) (A := A.H) (by simp) (by simp [R.reach.len])
    (hv.mono [t] [A.H]) extra
  exact ⟨[t] ++ xo, [A.H] ++ xm, by simpa using h1, by simpa using h2⟩

theorem post_full {s : SessSt K} (R : ReachTotal ops s.heap mats) {j r : Nat} {A : Mat K} (hr : ops[j]? = some r)
    (hA : mats[j]? = some A) (extra : Nat) : Post ops mats (pyFull extra r s) (.ok (.arr2 A.dense)) := by
  obtain ⟨Rep, hTy⟩ := R.reach.represents hr hA
  obtain ⟨cols, c', h1⟩ := C10_to_array_returns R hr (s.heap.length + extra) (by omega) s.cnt
  obtain ⟨h2, h3, h4, -⟩ := C10_to_array R.reach hr hA _ _ _ _ h1
  obtain ⟨o, ho, o1, o2, o3, -⟩ := Rep.shape
  have he : (⟨o.dtype, o.nargout, o.nargin, fun i j => (cols[j]?.bind (·[i]?)).getD 0⟩ : NdArray2 K) = A.dense := by
    unfold Mat.dense
    rw [o1, o2, o3]
    congr 1
    funext i l
    by_cases hc : i < A.rows ∧ l < A.cols
    · rw [if_pos hc, h3 i hc.1 l hc.2]; rfl
    · rw [if_neg hc]
      by_cases hl : l < cols.length
      · have hcol := h4 cols[l] (List.getElem_mem hl)
        rw [List.getElem?_eq_getElem hl, Option.bind_some, List.getElem?_eq_none (by rw [hcol]; omega)]; rfl
      · rw [List.getElem?_eq_none (by omega)]; rfl
  change Post ops mats (Sess.bind (Sess.act fun h => toArray h (h.length + extra) r) _ s) _
  simp only [Sess.bind, Sess.act, h1, ho, he]
  refine post_same R (.arr2 _ ?_)
  intro i hi l hl
  change i < A.rows at hi
  change l < A.cols at hl
  simp only [Mat.ofNd, Mat.dense, if_pos (And.intro hi hl)]
  exact hTy i hi l hl

/-- reading a variable -/
theorem read_cases {env : List (Except Err (PyVal K))} {senv : List (Except Err (SVal K))} (F : List.Forall₂ (VRel ops mats) env senv)
    (u : Nat) : (readVar env u = Sess.raise .unboundLocal ∧ sread senv u = .error .unboundLocal) ∨
      ∃ v w, readVar env u = Sess.pure v ∧ sread senv u = .ok w ∧ senv[u]? = some (.ok w) ∧ VRel ops mats (.ok v) (.ok w) := by
  have hlen := F.length_eq
  by_cases hu : u < env.length
  · have hu' : u < senv.length := by omega
    have hrel : VRel ops mats env[u] senv[u] := by
      have := (List.forall₂_iff_get.1 F).2 u hu hu'
      simpa using this
    have e1 : env[u]? = some env[u] := List.getElem?_eq_getElem hu
    have e2 : senv[u]? = some senv[u] := List.getElem?_eq_getElem hu'
    unfold readVar sread
    rw [e1, e2]
    generalize env[u] = a at hrel ⊢
    generalize senv[u] = b at hrel ⊢
    cases a with
    | error e => cases hrel; exact .inl ⟨rfl, rfl⟩
    | ok v =>
      cases b with
      | error e => cases hrel
      | ok w => exact .inr ⟨v, w, rfl, rfl, rfl, hrel⟩
  · left
    unfold readVar sread
    rw [List.getElem?_eq_none (by omega), List.getElem?_eq_none (by omega)]
    exact ⟨rfl, rfl⟩

theorem post_read1 {env : List (Except Err (PyVal K))} {senv : List (Except Err (SVal K))} (F : List.Forall₂ (VRel ops mats) env senv)
    {s : SessSt K} (R : ReachTotal ops s.heap mats) (u : Nat) {f : PyVal K → Sess K (PyVal K)} {g : SVal K → Except Err (SVal K)}
    (h : ∀ v w, senv[u]? = some (.ok w) → VRel ops mats (.ok v) (.ok w) → Post ops mats (f v s) (g w)) :
    Post ops mats (Sess.bind (readVar env u) f s) (Except.bind (sread senv u) g) := by
  rcases read_cases F u with ⟨h1, h2⟩ | ⟨v, w, h1, h2, h3, h4⟩
  · rw [h1, h2]; exact post_same R (.err _)
  · rw [h1, h2]; exact h v w h3 h4

theorem post_read2 {env : List (Except Err (PyVal K))} {senv : List (Except Err (SVal K))} (F : List.Forall₂ (VRel ops mats) env senv)
    {s : SessSt K} (R : ReachTotal ops s.heap mats) (u v : Nat) {f : PyVal K → PyVal K → Sess K (PyVal K)}
    {g : SVal K → SVal K → Except Err (SVal K)}
    (h : ∀ a a' b b', senv[u]? = some (.ok a') → senv[v]? = some (.ok b') → VRel ops mats (.ok a) (.ok a') →
      VRel ops mats (.ok b) (.ok b') → Post ops mats (f a b s) (g a' b')) :
    Post ops mats (Sess.bind (readVar env u) (fun a => Sess.bind (readVar env v) fun b => f a b) s)
      (Except.bind (sread senv u) fun a => Except.bind (sread senv v) fun b => g a b) :=
  post_read1 F R u fun a a' h1 h2 => post_read1 F R v fun b b' h3 h4 => h a a' b b' h1 h3 h2 h4

theorem post_onOp {s : SessSt K} {v : PyVal K} {w : SVal K} (hv : VRel ops mats (.ok v) (.ok w)) (hw : w.isMat)
    {f : Nat → Sess K (PyVal K)} {q : Except Err (SVal K)}
    (h : ∀ (j r : Nat) (A : Mat K), ops[j]? = some r → mats[j]? = some A → v = .op r → w = .mat A → Post ops mats (f r s) q) :
    Post ops mats (onOp v f s) q := by
  cases hv with
  | op j r A h1 h2 => exact h j r A h1 h2 rfl rfl
  | arr x h => exact hw.elim
  | arr2 X h => exact hw.elim
  | num a ka h => exact hw.elim
  | none => exact hw.elim
  | other => exact hw.elim

/-- one statement -/
theorem stmt_post {env : List (Except Err (PyVal K))} {senv : List (Except Err (SVal K))} (F : List.Forall₂ (VRel ops mats) env senv)
    {s : SessSt K} (R : ReachTotal ops s.heap mats) (extra : Nat) (c : Stmt K) (w : c.WF senv) :
    Post ops mats (c.exec extra env s) (c.spec senv) := by
  cases c with
  | array x => exact post_same R (.arr x w)
  | array2 A => exact post_same R (.arr2 A w)
  | num a ka => exact post_same R (.num a ka w)
  | none => exact post_same R .none
  | other => exact post_same R .other
  | new A sy he f ft fa => exact post_make R (.new A sy he f ft fa) w.1 w.2 rfl rfl
  | ident n k => exact post_make R (.ident n k) trivial trivial rfl rfl
  | zero nin nout k => exact post_make R (.zero nin nout k) trivial trivial rfl rfl
  | diag d => exact post_make R (.diag d) w trivial rfl rfl
  | fromArray u sy he =>
    refine post_read1 F R u fun v a h1 h2 => ?_
    have hA := w.1 a h1
    have hf := w.2 a h1
    cases h2 with
    | arr2 X h =>
      refine post_make R (.nd X sy he) ⟨h, hf X rfl⟩ trivial rfl ?_
      simp only [Cmd.spec]
      split <;> rfl
    | op j r A h1 h2 => exact hA.elim
    | arr x h => exact hA.elim
    | num a ka h => exact hA.elim
    | none => exact hA.elim
    | other => exact hA.elim
  | mul u v =>
    refine post_read2 F R u v fun a a' b b' h1 h2 h3 h4 => ?_
    have hw := w a' h1 b' h2
    cases h3 with
    | op j r A j1 j2 => exact post_dunderMul R j1 j2 h4 extra
    | arr x h => exact absurd hw (by simp [SVal.isMat, SVal.isArray])
    | arr2 X h => exact absurd hw (by simp [SVal.isMat, SVal.isArray])
    | num a ka h =>
      rcases hw with hw | ⟨hw, -⟩
      · exact hw.elim
      · cases h4 with
        | op k t B k1 k2 =>
          refine post_make R (.smul k a ka) h trivial ?_ ?_
          · simp [Cmd.exec, look_of k1, bind, Except.bind]
          · simp [Cmd.spec, mlook_of k2, bind, Except.bind, Except.map]
        | arr x h => exact hw.elim
        | arr2 X h => exact hw.elim
        | num a ka h => exact hw.elim
        | none => exact hw.elim
        | other => exact hw.elim
    | none =>
      rcases hw with hw | ⟨hw, -⟩
      · exact hw.elim
      · cases h4 with
        | op k t B k1 k2 => exact post_same R (.err _)
        | arr x h => exact hw.elim
        | arr2 X h => exact hw.elim
        | num a ka h => exact hw.elim
        | none => exact hw.elim
        | other => exact hw.elim
    | other =>
      rcases hw with hw | ⟨hw, -⟩
      · exact hw.elim
      · cases h4 with
        | op k t B k1 k2 => exact post_same R (.err _)
        | arr x h => exact hw.elim
        | arr2 X h => exact hw.elim
        | num a ka h => exact hw.elim
        | none => exact hw.elim
        | other => exact hw.elim
  | add u v =>
    refine post_read2 F R u v fun a a' b b' h1 h2 h3 h4 => ?_
    cases h3 with
    | op j r A j1 j2 =>
      cases h4 with
      | op k t B k1 k2 =>
        refine post_make R (.add j k) trivial trivial ?_ ?_
        · simp [Cmd.exec, look_of j1, look_of k1, bind, Except.bind]
        · simp only [Cmd.spec, mlook_of j2, mlook_of k2, bind, Except.bind]
          split <;> rfl
      | _ => exact post_same R (.err _)
    | _ => cases h4 <;> exact post_same R (.err _)
  | sub u v =>
    refine post_read2 F R u v fun a a' b b' h1 h2 h3 h4 => ?_
    cases h3 with
    | op j r A j1 j2 =>
      cases h4 with
      | op k t B k1 k2 =>
        refine post_make R (.sub j k) trivial trivial ?_ ?_
        · simp [Cmd.exec, look_of j1, look_of k1, bind, Except.bind]
        · simp only [Cmd.spec, mlook_of j2, mlook_of k2, bind, Except.bind]
          split <;> rfl
      | _ => exact post_same R (.err _)
    | _ => cases h4 <;> exact post_same R (.err _)
  | div u v =>
    refine post_read2 F R u v fun a a' b b' h1 h2 h3 h4 => ?_
    cases h3 with
    | op j r A j1 j2 =>
      cases h4 with
      | num k kk hk =>
        change Post ops mats (Sess.make (trueDiv r k kk) s) (if k = 0 then _ else _)
        by_cases h0 : k = 0
        · rw [if_pos h0]
          have : trueDiv (K := K) r k kk s.heap = .error .zeroDivisionError := by simp [trueDiv, h0]
          simp only [Sess.make, this]
          exact post_same R (.err _)
        · rw [if_neg h0]
          refine post_make R (.smul j (1 / k) (DKind.real.join kk)) ((w _ h1 _ h2).2 k kk rfl) trivial ?_ ?_
          · simp [Cmd.exec, look_of j1, bind, Except.bind, trueDiv, h0]
          · simp [Cmd.spec, mlook_of j2, bind, Except.bind, Except.map]
      | _ => exact post_same R (.err _)
    | _ => cases h4 <;> exact post_same R (.err _)
  | neg u =>
    refine post_read1 F R u fun v a h1 h2 => ?_
    refine post_onOp h2 (w a h1) fun j r A j1 j2 e1 e2 => ?_
    subst e1 e2
    refine post_make R (.neg j) trivial trivial ?_ ?_
    · simp [Cmd.exec, look_of j1, bind, Except.bind]
    · simp [Cmd.spec, mlook_of j2, bind, Except.bind, Except.map]
  | pow u k =>
    refine post_read1 F R u fun v a h1 h2 => ?_
    refine post_onOp h2 (w a h1) fun j r A j1 j2 e1 e2 => ?_
    subst e1 e2
    refine post_make R (.pow j k) trivial trivial ?_ ?_
    · simp [Cmd.exec, look_of j1, bind, Except.bind]
    · simp only [Cmd.spec, mlook_of j2, bind, Except.bind]
      split
      · rfl
      · split <;> rfl
  | powOther u v =>
    refine post_read2 F R u v fun a a' b b' h1 h2 h3 h4 => ?_
    refine post_onOp h3 (w.1 a' h1) fun j r A j1 j2 e1 e2 => ?_
    subst e1 e2
    exact post_same R (.err _)
  | call u v =>
    refine post_read2 F R u v fun a a' b b' h1 h2 h3 h4 => ?_
    refine post_onOp h3 (w a' h1) fun j r A j1 j2 e1 e2 => ?_
    subst e1 e2
    exact post_dunderMul R j1 j2 h4 extra
  | rmatvec u v =>
    refine post_read2 F R u v fun a a' b b' h1 h2 h3 h4 => ?_
    refine post_onOp h3 (w a' h1) fun j r A j1 j2 e1 e2 => ?_
    subst e1 e2
    exact post_rmatvec R j1 j2 h4 extra
  | T u =>
    refine post_read1 F R u fun v a h1 h2 => ?_
    refine post_onOp h2 (w a h1) fun j r A j1 j2 e1 e2 => ?_
    subst e1 e2
    exact post_T R j1 j2
  | H u =>
    refine post_read1 F R u fun v a h1 h2 => ?_
    refine post_onOp h2 (w a h1) fun j r A j1 j2 e1 e2 => ?_
    subst e1 e2
    exact post_H R j1 j2
  | bar u =>
    refine post_read1 F R u fun v a h1 h2 => ?_
    refine post_onOp h2 (w a h1) fun j r A j1 j2 e1 e2 => ?_
    subst e1 e2
    refine post_make R (.conj j) trivial trivial ?_ ?_
    · simp [Cmd.exec, look_of j1, bind, Except.bind]
    · simp [Cmd.spec, mlook_of j2, bind, Except.bind, Except.map]
  | full u =>
    refine post_read1 F R u fun v a h1 h2 => ?_
    refine post_onOp h2 (w a h1) fun j r A j1 j2 e1 e2 => ?_
    subst e1 e2
    exact post_full R j1 j2 extra
  | reset u =>
    refine post_read1 F R u fun v a h1 h2 => ?_
    refine post_onOp h2 (w a h1) fun j r A j1 j2 e1 e2 => ?_
    subst e1 e2
    exact post_same R .none
  | reduce u rows cols =>
    refine post_read1 F R u fun v a h1 h2 => ?_
    have hw := w.2 a h1
    refine post_onOp h2 (w.1 a h1) fun j r A j1 j2 e1 e2 => ?_
    subst e1 e2
    refine post_make R (.reduce j rows cols) (fun B hB => ?_) trivial ?_ ?_
    · rw [j2] at hB; cases hB; exact hw A rfl
    · simp [Cmd.exec, look_of j1, bind, Except.bind]
    · obtain ⟨rs, cs, e1, e2, -⟩ := hw A rfl
      simp [Cmd.spec, mlook_of j2, bind, Except.bind, Except.map, e1, e2]
  | symreduce u idx =>
    refine post_read1 F R u fun v a h1 h2 => ?_
    have hw := w.2 a h1
    refine post_onOp h2 (w.1 a h1) fun j r A j1 j2 e1 e2 => ?_
    subst e1 e2
    refine post_make R (.symreduce j idx) (fun B hB => ?_) trivial ?_ ?_
    · rw [j2] at hB; cases hB; exact hw A rfl
    · simp [Cmd.exec, look_of j1, bind, Except.bind]
    · obtain ⟨rs, cs, e1, e2, -⟩ := hw A rfl
      simp [Cmd.spec, mlook_of j2, bind, Except.bind, Except.map, e1, e2]

theorem session_inv (extra : Nat) : ∀ (cs : List (Stmt K)) (ops : List Nat) (mats : List (Mat K)) (env : List (Except Err (PyVal K)))
    (senv : List (Except Err (SVal K))) (s : SessSt K), List.Forall₂ (VRel ops mats) env senv → ReachTotal ops s.heap mats →
    SessionWF senv cs →
    ∃ ops' mats', List.Forall₂ (VRel ops' mats') (session extra cs env s).1 (sessionSpec cs senv) ∧
      ReachTotal ops' (session extra cs env s).2.heap mats'
  | [], ops, mats, env, senv, s, F, R, _ => ⟨ops, mats, F, R⟩
  | c :: cs, ops, mats, env, senv, s, F, R, w => by
    obtain ⟨xo, xm, R', h'⟩ := stmt_post F R extra c w.1
    refine session_inv extra cs (ops ++ xo) (mats ++ xm) _ _ _ ?_ R' w.2
    exact List.rel_append (F.imp fun _ _ h => h.mono xo xm) (.cons h' .nil)

/-- **C65.** Every session of the library is the same session on matrices.  Operators, arrays, numbers and other objects are
combined in any order, with `*` (from both sides), `+`, `-`, `/`, `**`, calls, `rmatvec`, `.T`, `.H`, `.bar`, `full()`,
`linop_from_ndarray`, reduced operators and `reset_counters()`; operands that make no sense raise, and the session goes on.
Every statement has the outcome it has on matrices: the same exception, the same array or number, or an operator which
represents the matrix, for all later products too.  The counters at the start do not matter. -/
theorem C65_sessions (cs : List (Stmt K)) (w : SessionWF [] cs) (extra : Nat) (c : Cnt) :
    List.Forall₂ (Agree (session extra cs [] ⟨[], c⟩).2.heap) (session extra cs [] ⟨[], c⟩).1 (sessionSpec cs []) := by
  obtain ⟨ops, mats, F, R⟩ := session_inv extra cs [] [] [] [] ⟨[], c⟩ .nil
    ⟨[], trivial, by simp, rfl, rfl⟩ w
  refine F.imp fun v w h => ?_
  cases h with
  | err e => rfl
  | op j r A h1 h2 => exact ⟨(R.reach.represents h1 h2).1, R.total h1 h2⟩
  | arr x h => rfl
  | arr2 X h => rfl
  | num a ka h => exact ⟨rfl, rfl⟩
  | none => trivial
  | other => trivial

/-- **C65.** Over the complex numbers the condition on divisors in `Stmt.WF` always holds. -/
theorem C65_reciprocal (k : ℂ) (kk : DKind) (hk : k ∈ (DTypes.sub kk : Subring ℂ)) :
    1 / k ∈ (DTypes.sub (DKind.real.join kk) : Subring ℂ) := by
  cases kk with
  | complex => exact Subring.mem_top _
  | real =>
    obtain ⟨x, rfl⟩ := hk
    exact ⟨1 / x, by simp⟩
  | int =>
    obtain ⟨x, rfl⟩ := hk
    exact ⟨1 / (x : ℝ), by simp⟩

/-- the outcome of one statement -/
theorem C65_at {h : Heap K} {l : List (Except Err (PyVal K))} {l' : List (Except Err (SVal K))} (F : List.Forall₂ (Agree h) l l') {k : Nat}
    {w : Except Err (SVal K)} (hw : l'[k]? = some w) : ∃ v, l[k]? = some v ∧ Agree h v w := by
  obtain ⟨hk, rfl⟩ := List.getElem?_eq_some_iff.1 hw
  have hk' : k < l.length := by rw [F.length_eq]; exact hk
  exact ⟨l[k], List.getElem?_eq_getElem hk', by simpa using (List.forall₂_iff_get.1 F).2 k hk' hk⟩

section
open Complex

/-- a session: `D = DiagonalOperator([2., 3.])`, `a = 1j`, `E = a * D`, `x = [1., 5.]`, `E.rmatvec(x)`, `l = []`, `D * l`, `l * D`,
`D + a`, `a - D`, `x2 = D.full()`, `D * x2` -/
private noncomputable def demo : List (Stmt ℂ) :=
  [.diag ⟨.real, [2, 3]⟩, .num I .complex, .mul 1 0, .array ⟨.real, [1, 5]⟩, .rmatvec 2 3, .other, .mul 0 5, .mul 5 0,
   .add 0 1, .sub 1 0, .full 0, .mul 0 10]

/-- the hypotheses of `C65_sessions` hold for it, -/
private theorem demo_wf : SessionWF [] demo := by
  have h2 : (2 : ℂ) ∈ (DTypes.sub .real : Subring ℂ) := ⟨2, by simp⟩
  have h3 : (3 : ℂ) ∈ (DTypes.sub .real : Subring ℂ) := ⟨3, by simp⟩
  have h1 : (1 : ℂ) ∈ (DTypes.sub .real : Subring ℂ) := ⟨1, by simp⟩
  have h5 : (5 : ℂ) ∈ (DTypes.sub .real : Subring ℂ) := ⟨5, by simp⟩
  have hI : I ∈ (DTypes.sub .complex : Subring ℂ) := Subring.mem_top _
  simp [demo, SessionWF, Stmt.WF, Stmt.spec, Holds, sread, smulSpec, SVal.isMat, SVal.isArray, Arr.Typed, h1, h2, h3, h5, hI,
    bind, Except.bind]

/-- and the library computes: the adjoint product `-2i, -15i`, and `ValueError`, `TypeError` where operands make no sense. -/
example (c : Cnt) :
    let out := (session 0 demo [] ⟨[], c⟩).1
    out[4]? = some (.ok (.arr ⟨.complex, [-(2 * I), -(3 * I * 5)]⟩)) ∧ out[6]? = some (.error .valueError) ∧
    out[7]? = some (.error .valueError) ∧ out[8]? = some (.error .valueError) ∧ out[9]? = some (.error .typeError) ∧
    out[11]? = some (.error .valueError) := by
  have F := C65_sessions demo demo_wf 0 c
  have key : ∀ (k : Nat) (e : Err), (sessionSpec demo [])[k]? = some (.error e) →
      (session 0 demo [] ⟨[], c⟩).1[k]? = some (.error e) := by
    intro k e hk
    obtain ⟨v, h1, h2⟩ := C65_at F hk
    rw [h1]
    cases v with
    | error e' => rw [h2]
    | ok v => cases v <;> exact h2.elim
  refine ⟨?_, key _ _ ?_, key _ _ ?_, key _ _ ?_, key _ _ ?_, key _ _ ?_⟩
  · have hk : (sessionSpec demo [])[4]? = some (.ok (.arr ⟨.complex, [-(2 * I), -(3 * I * 5)]⟩)) := by
      simp [demo, sessionSpec, Stmt.spec, sread, smulSpec, bind, Except.bind, Mat.H, Mat.smul, Mat.diag, Mat.app, DKind.join,
        Finset.sum_range_succ, List.range_succ]
      have c2 : (starRingEnd ℂ) 2 = 2 := Complex.conj_ofReal 2
      have c3 : (starRingEnd ℂ) 3 = 3 := Complex.conj_ofReal 3
      rw [c2, c3]
      constructor <;> ring
    obtain ⟨v, h1, h2⟩ := C65_at F hk
    rw [h1]
    cases v with
    | error e' => exact h2.elim
    | ok v =>
      cases v with
      | arr x => rw [show x = _ from h2]
      | _ => exact h2.elim
  all_goals simp [demo, sessionSpec, Stmt.spec, sread, smulSpec, bind, Except.bind, Mat.smul, Mat.diag, Mat.dense]

end

end Verif.Linop
