import Verif.Solver.Show

/-!
# Lemmas about printing
-/

namespace Verif.Solver
open Scalar Vect

variable {S U V α β : Type}

theorem Out.ext' {p q : Out S α} (h1 : p.lines = q.lines) (h2 : p.val = q.val) : p = q := by
  cases p; cases q; cases h1; cases h2; rfl

/-- the value of statements one after the other -/
theorem Out.val_bind (p : Out S α) (f : α → Out S β) : (p >>= f).val = (p.val >>= fun a => (f a).val) := by
  show (Out.bind p f).val = _
  unfold Out.bind
  cases p.val <;> rfl

theorem Out.bind_ok {p : Out S α} {a : α} (f : α → Out S β) (h : p.val = .ok a) :
    (p >>= f).lines = p.lines ++ (f a).lines := by
  show (Out.bind p f).lines = _
  unfold Out.bind
  rw [h]

theorem Out.bind_error {p : Out S α} {e : PyError} (f : α → Out S β) (h : p.val = .error e) : (p >>= f).lines = p.lines := by
  show (Out.bind p f).lines = _
  unfold Out.bind
  rw [h]

@[simp] theorem Out.val_pure (a : α) : (pure a : Out S α).val = .ok a := rfl
@[simp] theorem Out.lines_pure (a : α) : (pure a : Out S α).lines = [] := rfl
@[simp] theorem quiet_val (r : Except PyError α) : (quiet r : Out S α).val = r := rfl
@[simp] theorem quiet_lines (r : Except PyError α) : (quiet r : Out S α).lines = [] := rfl
@[simp] theorem say_val (c : Bool) (l : List (Line S)) : (say c l).val = .ok () := rfl
@[simp] theorem say_lines (c : Bool) (l : List (Line S)) : (say c l).lines = if c then l else [] := rfl
@[simp] theorem sayWith_false (p : Out S Unit) : sayWith false p = pure () := rfl
@[simp] theorem sayWith_true (p : Out S Unit) : sayWith true p = p := rfl

/-- statements that print nothing, followed by statements that print nothing -/
theorem Out.lines_bind_nil {p : Out S α} {f : α → Out S β} (hp : p.lines = []) (hf : ∀ a, p.val = .ok a → (f a).lines = []) :
    (p >>= f).lines = [] := by
  cases h : p.val with
  | error e => rw [Out.bind_error f h, hp]
  | ok a => rw [Out.bind_ok f h, hp, hf a h]; rfl

theorem sayMsg_val {len k : Nat} (h : k < len) : (sayMsg len k : Out S Unit).val = .ok () := by
  unfold sayMsg; rw [if_pos h]

theorem sayMsg_lines {len k : Nat} (h : k < len) : (sayMsg len k : Out S Unit).lines = [.message k] := by
  unfold sayMsg; rw [if_pos h]

theorem firstEntry_val {n : Nat} (h : 0 < n) : (firstEntry n : Out S Unit).val = .ok () := by
  unfold firstEntry; simp only; rw [if_neg (by omega)]

theorem sayRow_val {n : Nat} (h : 0 < n) (itn : Nat) : (sayRow n itn : Out S Unit).val = .ok () := by
  unfold sayRow
  rw [Out.val_bind, firstEntry_val h]
  rfl

theorem sayWith_val {c : Bool} {p : Out S Unit} (h : c = true → p.val = .ok ()) : (sayWith c p).val = .ok () := by
  cases c
  · rfl
  · exact h rfl

/-! ### Loops -/

section
variable {σ : Type} {cont : σ → Bool} {stepO : σ → Out S σ} {μ : σ → Nat}
  {h : ∀ s t, cont s = true → (stepO s).val = .ok t → cont t = true → μ t < μ s}

theorem outLoop_of_cont {s t : σ} (hc : cont s = true) (ht : (stepO s).val = .ok t) :
    outLoop cont stepO μ h s =
      ⟨(stepO s).lines ++ (outLoop cont stepO μ h t).lines, (outLoop cont stepO μ h t).val⟩ := by
  rw [outLoop, dif_pos hc]
  split
  · rename_i h'; rw [ht] at h'; cases h'
  · rename_i h'; rw [ht] at h'; cases h'; rfl

theorem outLoop_of_error {s : σ} {e : PyError} (hc : cont s = true) (ht : (stepO s).val = .error e) :
    outLoop cont stepO μ h s = ⟨(stepO s).lines, .error e⟩ := by
  rw [outLoop, dif_pos hc]
  split
  · rename_i h'; rw [ht] at h'; cases h'; rfl
  · rename_i h'; rw [ht] at h'; cases h'

theorem outLoop_of_not {s : σ} (hc : cont s = false) : outLoop cont stepO μ h s = ⟨[], .ok s⟩ := by
  rw [outLoop, dif_neg (by simp [hc])]

/-- A relation between the state before the loop, the printed lines and the outcome, shown backwards. -/
theorem outLoop_rec (P : σ → Out S σ → Prop) (hstop : ∀ s, cont s = false → P s ⟨[], .ok s⟩)
    (herr : ∀ s e, cont s = true → (stepO s).val = .error e → P s ⟨(stepO s).lines, .error e⟩)
    (hok : ∀ s t r, cont s = true → (stepO s).val = .ok t → P t r → P s ⟨(stepO s).lines ++ r.lines, r.val⟩) (s : σ) :
    P s (outLoop cont stepO μ h s) := by
  induction hm : (if cont s then μ s + 1 else 0) using Nat.strongRecOn generalizing s with
  | ind m ih =>
    rcases Bool.eq_false_or_eq_true (cont s) with hc | hc
    · cases hst : (stepO s).val with
      | error e => rw [outLoop_of_error hc hst]; exact herr s e hc hst
      | ok t =>
        rw [outLoop_of_cont hc hst]
        refine hok s t _ hc hst (ih _ ?_ t rfl)
        rw [← hm, if_pos hc]
        split
        · rename_i h'
          have := h s t hc hst h'
          omega
        · omega
    · rw [outLoop_of_not hc]; exact hstop s hc

/-- If the values of the bodies agree, so do those of the loops. -/
theorem outLoop_val {step : σ → Except PyError σ} {h' : ∀ s t, cont s = true → step s = .ok t → cont t = true → μ t < μ s}
    (hv : ∀ s, (stepO s).val = step s) (s : σ) : (outLoop cont stepO μ h s).val = exceptLoop cont step μ h' s := by
  refine outLoop_rec (h := h) (fun s r => r.val = exceptLoop cont step μ h' s) (fun s hc => ?_) (fun s e hc he => ?_)
    (fun s t r hc ht hr => ?_) s
  · rw [exceptLoop_of_not hc]
  · rw [exceptLoop_of_error hc ((hv s).symm.trans he)]
  · rw [exceptLoop_of_cont hc ((hv s).symm.trans ht)]; exact hr

/-- A loop whose body prints nothing prints nothing. -/
theorem outLoop_quiet (hq : ∀ s, (stepO s).lines = []) (s : σ) : (outLoop cont stepO μ h s).lines = [] := by
  refine outLoop_rec (h := h) (fun _ r => r.lines = []) (fun s hc => rfl) (fun s e hc he => hq s) (fun s t r hc ht hr => ?_) s
  rw [hq s, hr]; rfl

end

/-! ### Messages -/

/-- the number of the message in a line, if it is one -/
def Line.msg : Line S → Option Nat
  | .message k => some k
  | _ => none

/-- the number of the last message in the output -/
def lastMessage (l : List (Line S)) : Option Nat := (l.filterMap Line.msg).getLast?

theorem lastMessage_append (l l' : List (Line S)) : lastMessage (l ++ l') = (lastMessage l').or (lastMessage l) := by
  unfold lastMessage
  rw [List.filterMap_append, List.getLast?_append]

/-- Small facts about the arithmetic of the scalars, used only for the numbers that are computed in order to be printed. IEEE
arithmetic has them, and so does exact arithmetic. -/
structure PrintLaws (S : Type) [Scalar S] : Prop where
  /-- a positive number is not zero -/
  pos_ne (b : S) : lt (lit 0) b = true → feq b (lit 0) = false
  /-- zero times zero is zero -/
  zero_mul (b : S) : feq b (lit 0) = true → feq (lit 0 * b) (lit 0) = true
  /-- adding a square does not make a number negative -/
  add_sq (a b : S) : lt a (lit 0) = false → lt (a + b * b) (lit 0) = false
  zero : lt (lit 0 : S) (lit 0) = false

section
variable [Scalar S] [Vect S U] [Vect S V]

/-! ### Codes are at most 8 -/

theorem lsqrStep_istop {A : V → U} {AT : U → V} {kw : LsqrKw S U V} {lim : Int} {bnorm : S} {s t : LsqrLoop S U V}
    (h : lsqrStep A AT kw lim bnorm s = .ok t) : t.istop ≤ 8 := by
  unfold lsqrStep at h
  obtain ⟨v0, -, h⟩ := except_bind_ok h
  obtain ⟨⟨Mu, Nv, v, alpha, beta, Anorm, products⟩, -, h⟩ := except_bind_ok h
  obtain ⟨⟨rhobar1, psi, phibar⟩, -, h⟩ := except_bind_ok h
  obtain ⟨⟨rho, theta, rhobar, phi, phibar', tau, t1, t2⟩, -, h⟩ := except_bind_ok h
  obtain ⟨invRho, -, h⟩ := except_bind_ok h
  obtain ⟨w, -, h⟩ := except_bind_ok h
  obtain ⟨k, -, h⟩ := except_bind_ok h
  obtain ⟨⟨xnorm, cs2, sn2, z⟩, -, h⟩ := except_bind_ok h
  obtain ⟨tests, -, h⟩ := except_bind_ok h
  cases h
  simp only [lsqrStop]
  repeat' split
  all_goals omega

theorem lsmrStep_istop {A : V → U} {AT : U → V} {kw : LsmrKw S U V} {lim : Int} {normb : S} {s t : LsmrLoop S U V}
    (h : lsmrStep A AT kw lim normb s = .ok t) : t.istop ≤ 8 ∧ ∃ zeta, t.xNrgNorm2 = s.xNrgNorm2 + zeta * zeta := by
  unfold lsmrStep at h
  obtain ⟨⟨Mu, Nv, v, alpha, beta, products⟩, -, h⟩ := except_bind_ok h
  obtain ⟨r, -, h⟩ := except_bind_ok h
  obtain ⟨⟨hbar, x, h'⟩, -, h⟩ := except_bind_ok h
  obtain ⟨k, -, h⟩ := except_bind_ok h
  obtain ⟨⟨betadd, thetatilde, rhodold, betad, tautildeold, d, normr⟩, -, h⟩ := except_bind_ok h
  obtain ⟨condA, -, h⟩ := except_bind_ok h
  obtain ⟨tests, -, h⟩ := except_bind_ok h
  cases h
  refine ⟨?_, _, rfl⟩
  simp only [lsmrStop]
  repeat' split
  all_goals omega

theorem craigStep_istop {A : V → U} {AT : U → V} {kw : CraigKw S U V} {lim : Int} {bnorm : S} {s t : CraigLoop S U V}
    (h : craigStep A AT kw lim bnorm s = .ok t) : t.istop ≤ 8 := by
  unfold craigStep at h
  obtain ⟨⟨Mu, u, Nv, v, alpha, beta, products⟩, -, h⟩ := except_bind_ok h
  obtain ⟨⟨betaHat, alphaHat, s2, c, sn⟩, -, h⟩ := except_bind_ok h
  obtain ⟨tau, -, h⟩ := except_bind_ok h
  obtain ⟨zeta, -, h⟩ := except_bind_ok h
  obtain ⟨k, -, h⟩ := except_bind_ok h
  obtain ⟨test1, -, h⟩ := except_bind_ok h
  cases h
  simp only [craigStop]
  repeat' split
  all_goals omega

theorem craigmrStep_istop {A : V → U} {AT : U → V} {kw : CraigmrKw S U V} {lim : Int} {s t : CraigmrLoop S U V}
    (h : craigmrStep A AT kw lim s = .ok t) : t.istop ≤ 8 := by
  unfold craigmrStep at h
  obtain ⟨⟨Mu, u, Nv, v, alpha, beta, products⟩, -, h⟩ := except_bind_ok h
  obtain ⟨⟨betaHat, alphaHat, c, sn⟩, -, h⟩ := except_bind_ok h
  obtain ⟨cHat, -, h⟩ := except_bind_ok h
  obtain ⟨sHat, -, h⟩ := except_bind_ok h
  obtain ⟨k, -, h⟩ := except_bind_ok h
  cases h
  simp only [craigmrStop]
  repeat' split
  all_goals omega

/-! ### Values of the iterations -/

theorem lsqrStepO_val {show' : Bool} {n : Nat} (hn : show' = true → 0 < n) (other : LsqrLoop S U V → Bool) (A : V → U) (AT : U → V)
    (kw : LsqrKw S U V) (lim : Int) (bnorm : S) (s : LsqrLoop S U V) :
    (lsqrStepO show' other A AT n kw lim bnorm s).val = lsqrStep A AT kw lim bnorm s := by
  unfold lsqrStepO
  rw [Out.val_bind, quiet_val]
  cases lsqrStep A AT kw lim bnorm s with
  | error e => rfl
  | ok t =>
    show (_ >>= _ : Out S _).val = _
    rw [Out.val_bind, sayWith_val]
    · rfl
    · intro h
      simp only [Bool.and_eq_true] at h
      exact sayRow_val (hn h.1) _

theorem lsmrStepO_val {show' : Bool} {n : Nat} (hn : show' = true → 0 < n) (other more : LsmrLoop S U V → Bool) (A : V → U) (AT : U → V)
    (kw : LsmrKw S U V) (lim : Int) (normb : S) (s : LsmrLoop S U V) :
    (lsmrStepO show' other more A AT n kw lim normb s).val = lsmrStep A AT kw lim normb s := by
  unfold lsmrStepO
  rw [Out.val_bind, quiet_val]
  cases lsmrStep A AT kw lim normb s with
  | error e => rfl
  | ok t =>
    show (_ >>= _ : Out S _).val = _
    rw [Out.val_bind, sayWith_val]
    · rfl
    · intro h
      simp only [Bool.and_eq_true] at h
      rw [Out.val_bind, say_val]
      exact sayRow_val (hn h.1) _

theorem craigStepO_val {show' : Bool} {n : Nat} (hn : show' = true → 0 < n) (other : CraigLoop S U V → Bool) (A : V → U) (AT : U → V)
    (kw : CraigKw S U V) (lim : Int) (bnorm : S) (s : CraigLoop S U V) :
    (craigStepO show' other A AT n kw lim bnorm s).val = craigStep A AT kw lim bnorm s := by
  unfold craigStepO
  rw [Out.val_bind, quiet_val]
  cases craigStep A AT kw lim bnorm s with
  | error e => rfl
  | ok t =>
    show (_ >>= _ : Out S _).val = _
    rw [Out.val_bind, sayWith_val]
    · rfl
    · intro h
      simp only [Bool.and_eq_true] at h
      exact firstEntry_val (hn h.1)

theorem minresStepO_val {show' : Bool} {n : Nat} (hn : show' = true → 0 < n) (other : MinresLoop S V → Bool) (op : V → V) (eps : S)
    (kw : MinresKw S V) (itnlim : Nat) (beta1 : S) (s : MinresLoop S V) :
    (minresStepO show' other op eps n kw itnlim beta1 s).val = .ok (minresStep op eps kw itnlim beta1 s) := by
  unfold minresStepO
  simp only
  split
  · rfl
  · rw [Out.val_bind, sayWith_val]
    · rfl
    · intro h
      simp only [Bool.and_eq_true] at h
      exact sayRow_val (hn h.1) _

/-! ### Quiet iterations -/

theorem lsqrStepO_quiet (other : LsqrLoop S U V → Bool) (A : V → U) (AT : U → V) (n : Nat) (kw : LsqrKw S U V) (lim : Int) (bnorm : S)
    (s : LsqrLoop S U V) : (lsqrStepO false other A AT n kw lim bnorm s).lines = [] :=
  Out.lines_bind_nil rfl fun _ _ => rfl

theorem lsmrStepO_quiet (other more : LsmrLoop S U V → Bool) (A : V → U) (AT : U → V) (n : Nat) (kw : LsmrKw S U V) (lim : Int) (normb : S)
    (s : LsmrLoop S U V) : (lsmrStepO false other more A AT n kw lim normb s).lines = [] :=
  Out.lines_bind_nil rfl fun _ _ => rfl

theorem craigStepO_quiet (show' : Bool) (other : CraigLoop S U V → Bool) (A : V → U) (AT : U → V) (n : Nat) (kw : CraigKw S U V)
    (lim : Int) (bnorm : S) (s : CraigLoop S U V) : (craigStepO show' other A AT n kw lim bnorm s).lines = [] := by
  refine Out.lines_bind_nil rfl fun t _ => Out.lines_bind_nil ?_ fun _ _ => rfl
  unfold sayWith
  split <;> rfl

end

end Verif.Solver
