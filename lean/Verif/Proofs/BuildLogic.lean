import Verif.Proofs.CircuitSem
import Verif.Model.CircuitsN

/-!
# Rules for builders with loops

`Ens`: what every assignment that meets the calls satisfies.
-/

namespace Verif
open Build

/-- the numbers of registers after some calls -/
def after (is : List Instr) (n : Counts) : Counts := is.foldl (fun n i => i.next n) n

theorem after_append (a b : List Instr) (n : Counts) : after (a ++ b) n = after b (after a n) := by simp [after]

theorem safeProg_append (a b : List Instr) (n : Counts) : SafeProg (a ++ b) n = (SafeProg a n && SafeProg b (after a n)) := by
  induction a generalizing n with
  | nil => simp [SafeProg, after]
  | cons i is ih => simp [SafeProg, ih, after, Bool.and_assoc]

variable {α β σ : Type}

/-! ### Safe and clean calls -/

section well
variable (W : Set Name) (D : FnDecl)

/-- what is required of a call -/
def Instr.Fine (i : Instr) : Prop := i.Clean W ∧ ∀ d, i = .declare d → d = D

variable {W D}

/-- fewer registers -/
structure Counts.Le (a b : Counts) : Prop where
  np : a.np ≤ b.np
  ne : a.ne ≤ b.ne
  nf : a.nf ≤ b.nf

infix:50 " ≼ " => Counts.Le

theorem Counts.le_def {a b : Counts} : a ≼ b ↔ a.np ≤ b.np ∧ a.ne ≤ b.ne ∧ a.nf ≤ b.nf := ⟨fun h => ⟨h.1, h.2, h.3⟩, fun h => ⟨h.1, h.2.1, h.2.2⟩⟩

theorem Counts.Le.rfl {a : Counts} : a ≼ a := ⟨Nat.le_refl _, Nat.le_refl _, Nat.le_refl _⟩

theorem Counts.Le.trans {a b c : Counts} (h : a ≼ b) (h' : b ≼ c) : a ≼ c :=
  ⟨Nat.le_trans h.1 h'.1, Nat.le_trans h.2 h'.2, Nat.le_trans h.3 h'.3⟩

variable (W) in
/-- a point expression that may be used when there are `n` registers -/
def GoodPt (n : Counts) (e : PE) : Prop := e.Safe n.np = true ∧ e.Clean W
variable (W) in
def GoodEx (n : Counts) (e : EE) : Prop := e.Safe n.np n.ne = true ∧ e.Clean W
def GoodFn (n : Counts) (e : FE) : Prop := e.Safe n.nf = true

theorem PE.Safe.mono {a b : ℕ} (h : a ≤ b) {e : PE} (hs : e.Safe a = true) : e.Safe b = true := by
  induction e with
  | reg i => simp only [PE.Safe, decide_eq_true_eq] at *; omega
  | _ => simp_all [PE.Safe]

theorem EE.Safe.mono {a b a' b' : ℕ} (h : a ≤ b) (h' : a' ≤ b') {e : EE} (hs : e.Safe a a' = true) : e.Safe b b' = true := by
  induction e with
  | reg i => simp only [EE.Safe, decide_eq_true_eq] at *; omega
  | inner x y => simp only [EE.Safe, Bool.and_eq_true] at *; exact ⟨PE.Safe.mono h hs.1, PE.Safe.mono h hs.2⟩
  | pow x k => simp only [EE.Safe, Bool.and_eq_true] at *; exact ⟨PE.Safe.mono h hs.1, hs.2⟩
  | _ => simp_all [EE.Safe]

theorem FE.Safe.mono {a b : ℕ} (h : a ≤ b) {e : FE} (hs : e.Safe a = true) : e.Safe b = true := by
  induction e with
  | reg i => simp only [FE.Safe, decide_eq_true_eq] at *; omega
  | _ => simp_all [FE.Safe]

theorem GoodPt.mono {n m : Counts} (h : n ≼ m) {e : PE} (hg : GoodPt W n e) : GoodPt W m e := ⟨PE.Safe.mono h.1 hg.1, hg.2⟩
theorem GoodEx.mono {n m : Counts} (h : n ≼ m) {e : EE} (hg : GoodEx W n e) : GoodEx W m e := ⟨EE.Safe.mono h.1 h.2 hg.1, hg.2⟩
theorem GoodFn.mono {n m : Counts} (h : n ≼ m) {e : FE} (hg : GoodFn n e) : GoodFn m e := FE.Safe.mono h.3 hg

end well

/-! ### What every execution satisfies -/

/-- the number of registers a builder reports is the number its calls make -/
def Coh (c : Build α) : Prop := ∀ n, (c n).2.1 = after (c n).2.2 n

theorem Coh.ret (a : α) : Coh (ret a) := fun _ => rfl
theorem Coh.emit (i : Instr) (a : Counts → α) : Coh (emit i a) := fun _ => rfl
theorem Coh.andThen {c : Build α} {f : α → Build β} (h : Coh c) (h' : ∀ a, Coh (f a)) : Coh (andThen c f) := by
  intro n
  simp only [Build.andThen]
  rw [after_append, ← h, h']
theorem Coh.loop {body : σ → α → Build σ} (h : ∀ s a, Coh (body s a)) : ∀ (l : List α) (s : σ), Coh (loop body l s)
  | [], _ => .ret _
  | a :: l, s => .andThen (h s a) (Coh.loop h l)
theorem Coh.mapB {body : α → Build β} (h : ∀ a, Coh (body a)) : ∀ l : List α, Coh (mapB body l)
  | [] => .ret _
  | a :: l => .andThen (h a) fun _ => .andThen (Coh.mapB h l) fun _ => .ret _
theorem Coh.ptArg (e : PE) : Coh (ptArg e) := by cases e <;> first | exact .ret _ | exact .emit _ _
theorem Coh.exArg (e : EE) : Coh (exArg e) := by cases e <;> first | exact .ret _ | exact .emit _ _
theorem Coh.fnArg (e : FE) : Coh (fnArg e) := by cases e <;> first | exact .ret _ | exact .emit _ _
theorem Coh.pt (e : PE) : Coh (pt e) := .emit _ _
theorem Coh.ex (e : EE) : Coh (ex e) := .emit _ _
theorem Coh.fn (e : FE) : Coh (fn e) := .emit _ _
theorem Coh.define (mu : ℚ) (L : Option ℚ) : Coh (define mu L) := .emit _ _
theorem Coh.initial : Coh initial := .emit _ _
theorem Coh.stationary (f : FE) : Coh (stationary f) := .andThen (.fnArg f) fun _ => .emit _ _
theorem Coh.oracle (f : FE) (x : PE) : Coh (Build.oracle f x) := .andThen (.fnArg f) fun _ => .andThen (.ptArg x) fun _ => .emit _ _
theorem Coh.prox (x : PE) (f : FE) (g : Sym) : Coh (prox x f g) := .andThen (.ptArg x) fun _ => .andThen (.fnArg f) fun _ => .emit _ _
theorem Coh.conj (x : PE) (f : FE) : Coh (conj x f) := .andThen (.ptArg x) fun _ => .andThen (.fnArg f) fun _ => .emit _ _
theorem Coh.equality (e : EE) : Coh (equality e) := .andThen (.exArg e) fun _ => .emit _ _
theorem Coh.metric (e : EE) : Coh (metric e) := .andThen (.exArg e) fun _ => .emit _ _

variable {E : Type} [NormedAddCommGroup E] [InnerProductSpace ℝ E]

theorem meetsAll_append {SR : ℕ → E → E → ℝ → Prop} {env : Name → ℝ} {V : Vals E} (a b : List Instr) (n : Counts) (nd : ℕ) :
    MeetsAll SR env V (a ++ b) n nd ↔ MeetsAll SR env V a n nd ∧ MeetsAll SR env V b (after a n) (a.foldl (fun k i => i.nextDecl k) nd) := by
  induction a generalizing n nd with
  | nil => simp [MeetsAll, after]
  | cons i is ih => simp [MeetsAll, ih, after, and_assoc]

omit [NormedAddCommGroup E] [InnerProductSpace ℝ E] in
theorem consVals_append {V : Vals E} (a b : List Instr) : consVals V (a ++ b) = consVals V a ++ consVals V b := by
  induction a with
  | nil => rfl
  | cons i is ih => cases i <;> simp [consVals, ih]

/-- all constraints hold -/
def ConsOk (l : List (ℝ × Kind)) : Prop := ∀ c ∈ l, match c.2 with
  | .inequality => c.1 ≤ 0
  | .equality => c.1 = 0

section ens
variable (SR : ℕ → E → E → ℝ → Prop) (env : Name → ℝ) (V : Vals E)

/-- the result of `c` satisfies `Q` under every assignment that meets the calls and the constraints -/
def Ens (c : Build α) (Q : α → Prop) : Prop :=
  ∀ n nd, MeetsAll SR env V (c n).2.2 n nd → ConsOk (consVals V (c n).2.2) → Q (c n).1

variable {SR env V}

theorem Ens.ret {a : α} {Q : α → Prop} (h : Q a) : Ens SR env V (ret a) Q := fun _ _ _ _ => h

theorem Ens.mono {c : Build α} {Q Q' : α → Prop} (h : Ens SR env V c Q) (hq : ∀ a, Q a → Q' a) : Ens SR env V c Q' :=
  fun n nd h1 h2 => hq _ (h n nd h1 h2)

theorem Ens.andThen {c : Build α} {f : α → Build β} {Q : β → Prop} (hc : Coh c) (h : Ens SR env V c fun a => Ens SR env V (f a) Q) :
    Ens SR env V (andThen c f) Q := by
  intro n nd h1 h2
  simp only [Build.andThen] at h1 h2 ⊢
  rw [meetsAll_append] at h1
  rw [consVals_append] at h2
  rw [← hc n] at h1
  exact h n nd h1.1 (fun x hx => h2 x (List.mem_append_left _ hx)) _ _ h1.2 fun x hx => h2 x (List.mem_append_right _ hx)

theorem Ens.bind {c : Build α} {f : α → Build β} {P : α → Prop} {Q : β → Prop} (hc : Coh c) (h : Ens SR env V c P)
    (hf : ∀ a, P a → Ens SR env V (f a) Q) : Ens SR env V (c >>= f) Q := Ens.andThen hc (h.mono hf)

theorem Ens.pure {a : α} {Q : α → Prop} (h : Q a) : Ens SR env V (pure a) Q := .ret h

theorem Ens.pt (e : PE) : Ens SR env V (pt e) fun r => r.val env V = e.val env V := fun _ _ h _ => h.1

theorem Ens.ex (e : EE) : Ens SR env V (ex e) fun r => r.val env V = e.val env V := fun _ _ h _ => h.1

theorem Ens.true (c : Build α) : Ens SR env V c fun _ => True := fun _ _ _ _ => trivial

theorem Ens.exArg (e : EE) : Ens SR env V (exArg e) fun i => V.ex i = e.val env V := by
  cases e with
  | reg i => exact .ret rfl
  | _ => exact fun _ _ h _ => h.1

theorem Ens.equality (e : EE) : Ens SR env V (equality e) fun _ => e.val env V = 0 := by
  refine .andThen (.exArg e) ((Ens.exArg e).mono fun i hi n nd _ h2 => ?_)
  rw [← hi]
  exact h2 (V.ex i, .equality) (by simp [emit, consVals])

/-- loops: an invariant that survives every round; `j` counts the rounds -/
theorem Ens.loop {body : σ → α → Build σ} (hc : ∀ s a, Coh (body s a)) (I : ℕ → σ → Prop) : ∀ {l : List α} {s : σ} {j : ℕ}, I j s →
    (∀ s a i, l[i]? = some a → I (j + i) s → Ens SR env V (body s a) fun s' => I (j + i + 1) s') →
    Ens SR env V (loop body l s) fun s' => I (j + l.length) s'
  | [], _, _, h, _ => .ret h
  | a :: l, s, j, h, hb => .andThen (hc s a) ((hb s a 0 rfl h).mono fun s' hs =>
      (Ens.loop hc I (l := l) hs fun s a i hi h => by
        have := hb s a (i + 1) hi (by rwa [show j + (i + 1) = j + 0 + 1 + i by omega])
        rwa [show j + (i + 1) + 1 = j + 0 + 1 + i + 1 by omega] at this).mono
        fun _ ht => by rwa [List.length_cons, show j + (l.length + 1) = j + 0 + 1 + l.length by omega])

theorem Ens.mapB {body : α → Build β} (hc : ∀ a, Coh (body a)) {R : α → β → Prop} : ∀ {l : List α}, (∀ a ∈ l, Ens SR env V (body a) (R a)) →
    Ens SR env V (mapB body l) fun bs => List.Forall₂ R l bs
  | [], _ => .ret .nil
  | a :: _, hb => .andThen (hc a) ((hb a List.mem_cons_self).mono fun _ h1 =>
      .andThen (.mapB hc _) ((Ens.mapB hc fun a ha => hb a (List.mem_cons_of_mem _ ha)).mono fun _ h2 => .ret (.cons h1 h2)))

end ens

end Verif
