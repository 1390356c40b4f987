import Verif.Proofs.BuildLogic

/-!
# Executions of builders with given values

`Can c rr Q`: the calls of `c` are safe and clean, and from the state `rr` they have a real execution whose result satisfies `Q`.
-/

namespace Verif
open Build
open scoped InnerProductSpace

variable {E : Type} [NormedAddCommGroup E] [InnerProductSpace ℝ E] {α β σ : Type}

theorem Exec.append {SR : ℕ → E → E → ℝ → Prop} {env : Name → ℝ} {a b : List Instr} {r r' r'' : RRegs E} (h : Exec SR env a r r')
    (h' : Exec SR env b r' r'') : Exec SR env (a ++ b) r r'' := by
  induction h with
  | nil => exact h'
  | cons s _ ih => exact .cons s (ih h')

theorem exec_counts {SR : ℕ → E → E → ℝ → Prop} {env : Name → ℝ} {a : List Instr} {r r' : RRegs E} (h : Exec SR env a r r') :
    r'.counts = after a r.counts := by
  induction h with
  | nil => rfl
  | cons s _ ih => rw [ih, (step_counts s).1]; rfl

section
variable (W : Set Name) (D : FnDecl) (SR : ℕ → E → E → ℝ → Prop) (env : Name → ℝ)

def Can (c : Build α) (rr : RRegs E) (Q : α → RRegs E → Prop) : Prop :=
  ∃ rr', Exec SR env (c rr.counts).2.2 rr rr' ∧ (c rr.counts).2.1 = rr'.counts ∧ SafeProg (c rr.counts).2.2 rr.counts = true ∧
    (∀ i ∈ (c rr.counts).2.2, i.Fine W D) ∧ (rr.ConsHold → rr'.ConsHold) ∧ Q (c rr.counts).1 rr'

/-- `e` may be used in the state `rr` and has the value `v` -/
def IsPt (rr : RRegs E) (e : PE) (v : E) : Prop := GoodPt W rr.counts e ∧ e.den env rr.pts = v
def IsEx (rr : RRegs E) (e : EE) (v : ℝ) : Prop := GoodEx W rr.counts e ∧ e.den env rr.pts rr.exs = v
def IsFn (rr : RRegs E) (e : FE) (w : ℕ →₀ ℝ) : Prop := GoodFn rr.counts e ∧ e.den rr.fns = w
/-- the points `l` have the values `v 0 … v (m - 1)` -/
def IsPts (rr : RRegs E) (l : List PE) (m : ℕ) (v : ℕ → E) : Prop := l.length = m ∧ ∀ i e, l[i]? = some e → IsPt W env rr e (v i)
def IsFns (rr : RRegs E) (l : List FE) (m : ℕ) (w : ℕ → ℕ →₀ ℝ) : Prop := l.length = m ∧ ∀ i e, l[i]? = some e → IsFn rr e (w i)
/-- an accumulator after `j` rounds -/
def IsOpt (rr : RRegs E) (o : Option PE) (j : ℕ) (v : E) : Prop := match o with
  | none => j = 0 ∧ v = 0
  | some z => IsPt W env rr z v
def IsOptEx (rr : RRegs E) (o : Option EE) (j : ℕ) (v : ℝ) : Prop := match o with
  | none => j = 0 ∧ v = 0
  | some z => IsEx W env rr z v
end

variable {W : Set Name} {D : FnDecl} {SR : ℕ → E → E → ℝ → Prop} {env : Name → ℝ} {rr rr' : RRegs E}

theorem RRegs.Prefix.counts (h : rr.Prefix rr') : rr.counts ≼ rr'.counts := ⟨h.pts.length_le, h.exs.length_le, h.fns.length_le⟩

theorem IsPt.mono {e : PE} {v : E} (h : IsPt W env rr e v) (hp : rr.Prefix rr') : IsPt W env rr' e v :=
  ⟨h.1.mono hp.counts, by rw [← h.2, ← PE.val_vals hp e h.1.1, PE.val_vals .rfl e (h.1.mono hp.counts).1]⟩
theorem IsEx.mono {e : EE} {v : ℝ} (h : IsEx W env rr e v) (hp : rr.Prefix rr') : IsEx W env rr' e v :=
  ⟨h.1.mono hp.counts, by rw [← h.2, ← EE.val_vals hp e h.1.1, EE.val_vals .rfl e (h.1.mono hp.counts).1]⟩
theorem IsFn.mono {e : FE} {v : ℕ →₀ ℝ} (h : IsFn rr e v) (hp : rr.Prefix rr') : IsFn rr' e v :=
  ⟨h.1.mono hp.counts, by rw [← h.2, ← FE.val_vals hp e h.1, FE.val_vals .rfl e (h.1.mono hp.counts)]⟩
theorem IsPts.mono {l : List PE} {m : ℕ} {v : ℕ → E} (h : IsPts W env rr l m v) (hp : rr.Prefix rr') : IsPts W env rr' l m v :=
  ⟨h.1, fun i e he => (h.2 i e he).mono hp⟩
theorem IsFns.mono {l : List FE} {m : ℕ} {v : ℕ → ℕ →₀ ℝ} (h : IsFns rr l m v) (hp : rr.Prefix rr') : IsFns rr' l m v :=
  ⟨h.1, fun i e he => (h.2 i e he).mono hp⟩
theorem IsOpt.mono {o : Option PE} {j : ℕ} {v : E} (h : IsOpt W env rr o j v) (hp : rr.Prefix rr') : IsOpt W env rr' o j v := by
  cases o with
  | none => exact h
  | some z => exact IsPt.mono h hp
theorem IsOptEx.mono {o : Option EE} {j : ℕ} {v : ℝ} (h : IsOptEx W env rr o j v) (hp : rr.Prefix rr') : IsOptEx W env rr' o j v := by
  cases o with
  | none => exact h
  | some z => exact IsEx.mono h hp

theorem IsOpt.getD {o : Option PE} {j : ℕ} {v : E} (h : IsOpt W env rr o j v) (hj : j ≠ 0) : IsPt W env rr (o.getD (.reg 0)) v := by
  cases o with
  | none => exact absurd h.1 hj
  | some z => exact h
theorem IsOptEx.getD {o : Option EE} {j : ℕ} {v : ℝ} (h : IsOptEx W env rr o j v) (hj : j ≠ 0) : IsEx W env rr (o.getD (.reg 0)) v := by
  cases o with
  | none => exact absurd h.1 hj
  | some z => exact h

theorem IsPts.nil {v : ℕ → E} : IsPts W env rr [] 0 v := ⟨rfl, by simp⟩
theorem IsPts.append {l : List PE} {m : ℕ} {v : ℕ → E} (h : IsPts W env rr l m v) {e : PE} (he : IsPt W env rr e (v m)) :
    IsPts W env rr (l ++ [e]) (m + 1) v := by
  refine ⟨by simp [h.1], fun i x hx => ?_⟩
  by_cases hi : i < l.length
  · rw [List.getElem?_append_left hi] at hx; exact h.2 i x hx
  · obtain ⟨hl, _⟩ := List.getElem?_eq_some_iff.1 hx
    have hl : i = l.length := by simp at hl; omega
    subst hl
    simp at hx
    subst hx
    rwa [h.1]
theorem IsFns.append {l : List FE} {m : ℕ} {v : ℕ → ℕ →₀ ℝ} (h : IsFns rr l m v) {e : FE} (he : IsFn rr e (v m)) :
    IsFns rr (l ++ [e]) (m + 1) v := by
  refine ⟨by simp [h.1], fun i x hx => ?_⟩
  by_cases hi : i < l.length
  · rw [List.getElem?_append_left hi] at hx; exact h.2 i x hx
  · obtain ⟨hl, _⟩ := List.getElem?_eq_some_iff.1 hx
    have hl : i = l.length := by simp at hl; omega
    subst hl
    simp at hx
    subst hx
    rwa [h.1]

section ops
variable {a b : PE} {u v : E} {x y : EE} {r s : ℝ}
theorem IsPt.add (ha : IsPt W env rr a u) (hb : IsPt W env rr b v) : IsPt W env rr (a + b) (u + v) :=
  ⟨⟨by simp [ha.1.1, hb.1.1], ha.1.2, hb.1.2⟩, by rw [← ha.2, ← hb.2]; rfl⟩
theorem IsPt.sub (ha : IsPt W env rr a u) (hb : IsPt W env rr b v) : IsPt W env rr (a - b) (u - v) :=
  ⟨⟨by simp [ha.1.1, hb.1.1], ha.1.2, hb.1.2⟩, by rw [← ha.2, ← hb.2]; rfl⟩
theorem IsPt.neg (ha : IsPt W env rr a u) : IsPt W env rr (-a) (-u) := ⟨⟨ha.1.1, ha.1.2⟩, by rw [← ha.2]; rfl⟩
theorem IsPt.smul {c : Sym} (hc : ∀ n ∈ c.vars, n ∈ W) (ha : IsPt W env rr a u) : IsPt W env rr (c * a : PE) (c.eval env • u) :=
  ⟨⟨ha.1.1, hc, ha.1.2⟩, by rw [← ha.2]; rfl⟩
theorem IsPt.qmul {c : ℚ} (ha : IsPt W env rr a u) : IsPt W env rr (c * a : PE) ((c : ℝ) • u) :=
  ⟨⟨ha.1.1, by simp, ha.1.2⟩, by rw [← ha.2]; rfl⟩
theorem IsPt.div {c : ℚ} (hc : c ≠ 0) (ha : IsPt W env rr a u) : IsPt W env rr (a / c : PE) ((c : ℝ)⁻¹ • u) :=
  ⟨⟨by simp [hc, ha.1.1], ha.1.2⟩, by rw [← ha.2]; rfl⟩
theorem IsEx.add (ha : IsEx W env rr x r) (hb : IsEx W env rr y s) : IsEx W env rr (x + y) (r + s) :=
  ⟨⟨by simp [ha.1.1, hb.1.1], ha.1.2, hb.1.2⟩, by rw [← ha.2, ← hb.2]; rfl⟩
theorem IsEx.sub (ha : IsEx W env rr x r) (hb : IsEx W env rr y s) : IsEx W env rr (x - y) (r - s) :=
  ⟨⟨by simp [ha.1.1, hb.1.1], ha.1.2, hb.1.2⟩, by rw [← ha.2, ← hb.2]; rfl⟩
theorem IsEx.smul {c : Sym} (hc : ∀ n ∈ c.vars, n ∈ W) (ha : IsEx W env rr x r) : IsEx W env rr (c * x : EE) (c.eval env * r) :=
  ⟨⟨ha.1.1, hc, ha.1.2⟩, by rw [← ha.2]; rfl⟩
theorem IsEx.qmul {c : ℚ} (ha : IsEx W env rr x r) : IsEx W env rr (c * x : EE) ((c : ℝ) * r) :=
  ⟨⟨ha.1.1, by simp, ha.1.2⟩, by rw [← ha.2]; rfl⟩
theorem IsEx.addZero (ha : IsEx W env rr x r) : IsEx W env rr (.addNum x 0) r :=
  ⟨⟨ha.1.1, ha.1.2, rfl⟩, by rw [← ha.2]; simp [EE.den]⟩
theorem IsPt.inner (ha : IsPt W env rr a u) (hb : IsPt W env rr b v) : IsEx W env rr (a * b : EE) ⟪u, v⟫_ℝ :=
  ⟨⟨by simp [RRegs.counts, ha.1.1, hb.1.1] at *; exact ⟨ha.1.1, hb.1.1⟩, ha.1.2, hb.1.2⟩, by rw [← ha.2, ← hb.2]; rfl⟩
theorem IsPt.sq (ha : IsPt W env rr a u) : IsEx W env rr a.sq (‖u‖ ^ 2) :=
  ⟨⟨by rw [EE.safe_sq]; exact ha.1.1, ha.1.2⟩, by rw [← ha.2]; rfl⟩
theorem IsFn.add {f g : FE} {w w' : ℕ →₀ ℝ} (ha : IsFn rr f w) (hb : IsFn rr g w') : IsFn rr (f + g) (w + w') :=
  ⟨by simp [GoodFn, FE.safe_add]; exact ⟨ha.1, hb.1⟩, by rw [← ha.2, ← hb.2]; rfl⟩
end ops

/-! ### Rules -/

theorem Can.ret {a : α} {Q : α → RRegs E → Prop} (h : Q a rr) : Can W D SR env (ret a) rr Q :=
  ⟨rr, .nil _, rfl, rfl, by simp [Build.ret], id, h⟩

theorem Can.pure {a : α} {Q : α → RRegs E → Prop} (h : Q a rr) : Can W D SR env (pure a) rr Q := .ret h

theorem Can.mono {c : Build α} {Q Q' : α → RRegs E → Prop} (h : Can W D SR env c rr Q) (hq : ∀ a rr', rr.Prefix rr' → Q a rr' → Q' a rr') :
    Can W D SR env c rr Q' := by
  obtain ⟨rr', h1, h2, h3, h4, h5, h6⟩ := h
  exact ⟨rr', h1, h2, h3, h4, h5, hq _ _ (exec_prefix h1) h6⟩

theorem Can.andThen {c : Build α} {f : α → Build β} {P : α → RRegs E → Prop} {Q : β → RRegs E → Prop} (h : Can W D SR env c rr P)
    (hf : ∀ a rr', rr.Prefix rr' → P a rr' → Can W D SR env (f a) rr' Q) : Can W D SR env (andThen c f) rr Q := by
  obtain ⟨rr', h1, h2, h3, h4, h5, h6⟩ := h
  obtain ⟨rr'', g1, g2, g3, g4, g5, g6⟩ := hf _ rr' (exec_prefix h1) h6
  refine ⟨rr'', ?_, ?_, ?_, ?_, fun h => g5 (h5 h), ?_⟩ <;> simp only [Build.andThen, h2]
  · exact h1.append g1
  · exact g2
  · rw [safeProg_append, h3, ← exec_counts h1, g3]; rfl
  · intro i hi
    rcases List.mem_append.1 hi with hi | hi
    · exact h4 i hi
    · exact g4 i hi
  · exact g6

theorem Can.bind {c : Build α} {f : α → Build β} {P : α → RRegs E → Prop} {Q : β → RRegs E → Prop} (h : Can W D SR env c rr P)
    (hf : ∀ a rr', rr.Prefix rr' → P a rr' → Can W D SR env (f a) rr' Q) : Can W D SR env (c >>= f) rr Q := h.andThen hf

theorem Can.emit {i : Instr} {a : Counts → α} {Q : α → RRegs E → Prop} (hs : i.Safe rr.counts = true) (hf : i.Fine W D)
    (hst : Step SR env i rr rr') (hc : rr.ConsHold → rr'.ConsHold) (h : Q (a rr.counts) rr') : Can W D SR env (emit i a) rr Q :=
  ⟨rr', .cons hst (.nil _), (step_counts hst).1.symm, by simp [Build.emit, SafeProg, hs], by simpa [Build.emit] using hf, hc, h⟩

theorem consHold_of_eq (h : rr'.cons = rr.cons) : rr.ConsHold → rr'.ConsHold := by
  intro hc; unfold RRegs.ConsHold; rw [h]; exact hc

theorem Can.pt {e : PE} {v : E} (h : IsPt W env rr e v) : Can W D SR env (pt e) rr fun r rr' => IsPt W env rr' r v := by
  refine .emit h.1.1 ⟨h.1.2, by simp⟩ (.pt rr e) (consHold_of_eq rfl) ⟨⟨?_, trivial⟩, ?_⟩
  · simp [RRegs.counts]
  · rw [h.2]; simp [PE.den, RRegs.counts]

theorem Can.ex {e : EE} {v : ℝ} (h : IsEx W env rr e v) : Can W D SR env (ex e) rr fun r rr' => IsEx W env rr' r v := by
  refine .emit h.1.1 ⟨h.1.2, by simp⟩ (.ex rr e) (consHold_of_eq rfl) ⟨⟨?_, trivial⟩, ?_⟩
  · simp [RRegs.counts]
  · rw [h.2]; simp [EE.den, RRegs.counts]

theorem Can.fn {e : FE} {w : ℕ →₀ ℝ} (h : IsFn rr e w) :
    Can W D SR env (fn e) rr fun r rr' => IsFn rr' r w ∧ rr'.ndecl = rr.ndecl := by
  refine .emit h.1 ⟨trivial, by simp⟩ (.fn rr e) (consHold_of_eq rfl) ⟨⟨?_, ?_⟩, rfl⟩
  · simp [GoodFn, RRegs.counts]
  · rw [h.2]; simp [FE.den, RRegs.counts]

theorem Can.ptArg {e : PE} {v : E} (h : IsPt W env rr e v) :
    Can W D SR env (ptArg e) rr fun i rr' => i < rr'.pts.length ∧ rr'.pts.getD i 0 = v := by
  cases e with
  | reg i => exact .ret ⟨of_decide_eq_true h.1.1, h.2⟩
  | _ => exact .emit h.1.1 ⟨h.1.2, by simp⟩ (.pt rr _) (consHold_of_eq rfl) (by rw [h.2]; simp [RRegs.counts])

theorem Can.exArg {e : EE} {v : ℝ} (h : IsEx W env rr e v) :
    Can W D SR env (exArg e) rr fun i rr' => i < rr'.exs.length ∧ rr'.exs.getD i 0 = v := by
  cases e with
  | reg i => exact .ret ⟨of_decide_eq_true h.1.1, h.2⟩
  | _ => exact .emit h.1.1 ⟨h.1.2, by simp⟩ (.ex rr _) (consHold_of_eq rfl) (by rw [h.2]; simp [RRegs.counts])

theorem Can.fnArg {e : FE} {v : ℕ →₀ ℝ} (h : IsFn rr e v) :
    Can W D SR env (fnArg e) rr fun i rr' => i < rr'.fns.length ∧ rr'.fns.getD i 0 = v := by
  cases e with
  | reg i => exact .ret ⟨of_decide_eq_true h.1, h.2⟩
  | _ => exact .emit h.1 ⟨trivial, by simp⟩ (.fn rr _) (consHold_of_eq rfl) (by rw [h.2]; simp [RRegs.counts])

theorem Can.define {mu : ℚ} {L : Option ℚ} (hD : defDecl mu L = D) : Can W D SR env (define mu L) rr fun r rr' =>
    IsFn rr' r (Finsupp.single rr.ndecl 1) ∧ rr'.ndecl = rr.ndecl + 1 := by
  refine .emit (defDecl_safe mu L) ⟨trivial, ?_⟩ (.declare rr _) (consHold_of_eq rfl) ⟨⟨?_, ?_⟩, rfl⟩
  · intro d hd
    injection hd with hd
    rw [← hd, hD]
  · simp [GoodFn, RRegs.counts]
  · simp [FE.den, RRegs.counts]

theorem Can.initial (x : E) : Can W D SR env initial rr fun r rr' => IsPt W env rr' r x := by
  refine .emit rfl ⟨trivial, by simp⟩ (.initial rr x) (consHold_of_eq rfl) ⟨⟨?_, trivial⟩, ?_⟩
  · simp [RRegs.counts]
  · simp [PE.den, RRegs.counts]

theorem isPt_new {x : E} {t : List E} (h : rr.pts ++ x :: t <+: rr'.pts) : IsPt W env rr' (.reg rr.pts.length) x := by
  have := h.length_le
  simp at this
  exact ⟨⟨by simp [RRegs.counts]; omega, trivial⟩, prefix_new h _⟩

theorem isPt_new2 {x y : E} {t : List E} (h : rr.pts ++ x :: y :: t <+: rr'.pts) : IsPt W env rr' (.reg (rr.pts.length + 1)) y := by
  have := h.length_le
  simp at this
  exact ⟨⟨by simp [RRegs.counts]; omega, trivial⟩, prefix_new2 h _⟩

theorem isEx_new {x : ℝ} {t : List ℝ} (h : rr.exs ++ x :: t <+: rr'.exs) : IsEx W env rr' (.reg rr.exs.length) x := by
  have := h.length_le
  simp at this
  exact ⟨⟨by simp [RRegs.counts]; omega, trivial⟩, prefix_new h _⟩

theorem Can.stationary {f : FE} {w : ℕ →₀ ℝ} {x : E} {v : ℝ} (hf : IsFn rr f w) (h : SumSample SR w x 0 v) :
    Can W D SR env (stationary f) rr fun r rr' => IsPt W env rr' r.1 x ∧ IsPt W env rr' r.2.1 0 ∧ IsEx W env rr' r.2.2 v := by
  refine (Can.fnArg hf).andThen fun i rr1 hp hi => ?_
  refine .emit (by simp [Instr.Safe, RRegs.counts, hi.1]) ⟨trivial, by simp⟩ (.stationary rr1 i x v (by rw [hi.2]; exact h)) (consHold_of_eq rfl)
    ⟨isPt_new List.prefix_rfl, isPt_new2 List.prefix_rfl, isEx_new List.prefix_rfl⟩

theorem Can.oracle {f : FE} {w : ℕ →₀ ℝ} {x : PE} {u g : E} {v : ℝ} (hf : IsFn rr f w) (hx : IsPt W env rr x u) (h : SumSample SR w u g v) :
    Can W D SR env (Build.oracle f x) rr fun r rr' => IsPt W env rr' r.1 g ∧ IsEx W env rr' r.2 v := by
  refine (Can.fnArg hf).andThen fun i rr1 hp hi => (Can.ptArg (hx.mono hp)).andThen fun j rr2 hp2 hj => ?_
  have h1 : i < rr2.fns.length := hi.1.trans_le hp2.fns.length_le
  refine .emit (by simp [Instr.Safe, RRegs.counts, h1, hj.1]) ⟨trivial, by simp⟩
    (.oracle rr2 i j g v (by rw [prefix_getD hp2.fns hi.1, hi.2, hj.2]; exact h)) (consHold_of_eq rfl)
    ⟨isPt_new List.prefix_rfl, isEx_new List.prefix_rfl⟩

theorem Can.prox {f : FE} {w : ℕ →₀ ℝ} {x0 : PE} {u x g : E} {v : ℝ} {gamma : Sym} (hf : IsFn rr f w) (hx : IsPt W env rr x0 u)
    (hg : ∀ n ∈ gamma.vars, n ∈ W) (h : SumSample SR w x g v) (hu : x + gamma.eval env • g = u) :
    Can W D SR env (prox x0 f gamma) rr fun r rr' => IsPt W env rr' r.1 x ∧ IsPt W env rr' r.2.1 g ∧ IsEx W env rr' r.2.2 v := by
  refine (Can.ptArg hx).andThen fun j rr1 hp hj => (Can.fnArg (hf.mono hp)).andThen fun i rr2 hp2 hi => ?_
  have h1 : j < rr2.pts.length := hj.1.trans_le hp2.pts.length_le
  refine .emit (by simp [Instr.Safe, RRegs.counts, h1, hi.1]) ⟨hg, by simp⟩
    (.prox rr2 j i gamma x g v (by rw [hi.2]; exact h) (by rw [prefix_getD hp2.pts hj.1, hj.2]; exact hu)) (consHold_of_eq rfl)
    ⟨isPt_new List.prefix_rfl, isPt_new2 List.prefix_rfl, isEx_new List.prefix_rfl⟩

theorem Can.conj {f : FE} {w : ℕ →₀ ℝ} {g : PE} {u x : E} {v : ℝ} (hf : IsFn rr f w) (hx : IsPt W env rr g u) (h : SumSample SR w x u v) :
    Can W D SR env (conj g f) rr fun r rr' => IsPt W env rr' r x := by
  refine (Can.ptArg hx).andThen fun j rr1 hp hj => (Can.fnArg (hf.mono hp)).andThen fun i rr2 hp2 hi => ?_
  have h1 : j < rr2.pts.length := hj.1.trans_le hp2.pts.length_le
  refine .emit (by simp [Instr.Safe, RRegs.counts, h1, hi.1]) ⟨trivial, by simp⟩
    (.conj rr2 j i x v (by rw [prefix_getD hp2.pts hj.1, hi.2, hj.2]; exact h)) (consHold_of_eq rfl) (isPt_new List.prefix_rfl)

theorem Can.equality {e : EE} (h : IsEx W env rr e 0) : Can W D SR env (equality e) rr fun _ _ => True := by
  refine (Can.exArg h).andThen fun i rr1 hp hi => ?_
  refine .emit (by simp [Instr.Safe, RRegs.counts, hi.1]) ⟨trivial, by simp⟩ (.constr rr1 i .equality) ?_ trivial
  intro hc c hcm
  rcases List.mem_append.1 hcm with hcm | hcm
  · exact hc c hcm
  · simp only [List.mem_singleton] at hcm
    subst hcm
    exact hi.2

theorem Can.metric {e : EE} {v : ℝ} (h : IsEx W env rr e v) : Can W D SR env (metric e) rr fun _ rr' => rr'.metric = some v := by
  refine (Can.exArg h).andThen fun i rr1 hp hi => ?_
  exact .emit (by simp [Instr.Safe, RRegs.counts, hi.1]) ⟨trivial, by simp⟩ (.metric rr1 i) (consHold_of_eq rfl) (congrArg some hi.2)

/-- loops: an invariant that survives every round; `j` counts the rounds -/
theorem Can.loop {body : σ → α → Build σ} (I : ℕ → σ → RRegs E → Prop) : ∀ {l : List α} {s : σ} {j : ℕ} {rr : RRegs E}, I j s rr →
    (∀ s a i rr', l[i]? = some a → rr.Prefix rr' → I (j + i) s rr' → Can W D SR env (body s a) rr' fun s' rr'' => I (j + i + 1) s' rr'') →
    Can W D SR env (loop body l s) rr fun s' rr' => I (j + l.length) s' rr'
  | [], _, _, _, h, _ => .ret h
  | a :: l, s, j, rr, h, hb => (hb s a 0 rr rfl .rfl h).andThen fun s' rr' hp hs =>
      (Can.loop I (l := l) hs fun s a i rr'' hi hp' h => by
        have := hb s a (i + 1) rr'' hi (hp.trans hp') (by rwa [show j + (i + 1) = j + 0 + 1 + i by omega])
        rwa [show j + (i + 1) + 1 = j + 0 + 1 + i + 1 by omega] at this).mono
        fun _ _ _ ht => by rwa [List.length_cons, show j + (l.length + 1) = j + 0 + 1 + l.length by omega]

theorem Can.mapB {body : α → Build PE} : ∀ {l : List α} {v : ℕ → E} {rr : RRegs E},
    (∀ a i rr', l[i]? = some a → rr.Prefix rr' → Can W D SR env (body a) rr' fun b rr'' => IsPt W env rr'' b (v i)) →
    Can W D SR env (mapB body l) rr fun bs rr' => IsPts W env rr' bs l.length v
  | [], _, _, _ => .ret .nil
  | a :: l, v, rr, hb => (hb a 0 rr rfl .rfl).andThen fun b rr' hp h1 =>
      (Can.mapB (l := l) (v := fun i => v (i + 1)) fun a i rr'' hi hp' => hb a (i + 1) rr'' hi (hp.trans hp')).andThen fun bs rr'' hp' h2 =>
        .ret ⟨by simp [h2.1], fun i e he => by
          cases i with
          | zero => simp at he; subst he; exact h1.mono hp'
          | succ i => exact h2.2 i e (by simpa using he)⟩

theorem Can.addTo {o : Option PE} {j : ℕ} {u v : E} {x : PE} (h : IsOpt W env rr o j u) (hx : IsPt W env rr x v) :
    Can W D SR env (addTo o x) rr fun r rr' => IsPt W env rr' r (u + v) := by
  cases o with
  | none => exact .ret (by rw [h.2, zero_add]; exact hx)
  | some z => exact Can.pt (IsPt.add h hx)

theorem Can.subFrom {o : Option PE} {j : ℕ} {u v : E} {x : PE} (h : IsOpt W env rr o j u) (hx : IsPt W env rr x v) :
    Can W D SR env (subFrom o x) rr fun r rr' => IsPt W env rr' r (u - v) := by
  cases o with
  | none => exact (Can.pt hx.neg).mono fun _ _ _ hr => by rwa [h.2, zero_sub]
  | some z => exact Can.pt (IsPt.sub h hx)

theorem Can.addEx {o : Option EE} {j : ℕ} {u v : ℝ} {x : EE} (h : IsOptEx W env rr o j u) (hx : IsEx W env rr x v) :
    Can W D SR env (addEx o x) rr fun r rr' => IsEx W env rr' r (u + v) := by
  cases o with
  | none => exact (Can.ex hx.addZero).mono fun _ _ _ hr => by rwa [h.2, zero_add]
  | some z => exact Can.ex (IsEx.add h hx)

theorem Can.defineSum {mu : ℚ} {L : Option ℚ} (hD : defDecl mu L = D) (m : ℕ) (h0 : rr.ndecl = 0) :
    Can W D SR env (defineSum mu L m) rr fun r rr' => IsFns rr' r.1 (m + 1) (fun i => Finsupp.single i 1) ∧
      IsFn rr' r.2 (∑ i ∈ Finset.range (m + 1), Finsupp.single i 1) := by
  unfold Build.defineSum
  refine Can.bind (.define hD) ?_
  rintro f0 rr1 hp ⟨h1, h2⟩
  rw [h0] at h1 h2
  refine (Can.loop (fun j s rr => IsFns rr s.1 (j + 1) (fun i => Finsupp.single i 1) ∧
    IsFn rr s.2 (∑ i ∈ Finset.range (j + 1), Finsupp.single i 1) ∧ rr.ndecl = j + 1) (l := List.range m) (s := ([f0], f0)) (j := 0)
    ⟨⟨rfl, ?_⟩, ?_, by simpa using h2⟩ ?_).mono ?_
  · intro i e he
    cases i with
    | zero => simp at he; subst he; exact h1
    | succ i => simp at he
  · simpa using h1
  · rintro ⟨l, g⟩ a i rr2 - hp2 ⟨g1, g2, g3⟩
    refine Can.bind (.define hD) ?_
    rintro f rr3 hp3 ⟨h5, h6⟩
    refine Can.bind (.fn ((g2.mono hp3).add h5)) ?_
    rintro g rr4 hp4 ⟨h7, h8⟩
    refine .pure ⟨(g1.mono (hp3.trans hp4)).append (by rw [← g3]; exact h5.mono hp4), ?_, by rw [h8, h6, g3]⟩
    rw [Finset.sum_range_succ]
    rw [g3] at h7
    exact h7
  · rintro s rr' hp' ⟨a, b, -⟩
    rw [List.length_range, zero_add] at a b
    exact ⟨a, b⟩

/-- the metric of a builder -/
theorem Can.finishMetric {E_1 E_2 D_1 : EE} {u v w : ℝ} (h1 : IsEx W env rr E_1 u) (h2 : IsEx W env rr E_2 v) (h3 : IsEx W env rr D_1 w) :
    Can W D SR env (finishMetric E_1 E_2 D_1) rr fun _ rr' => rr'.metric = some (v - (u - w)) := by
  unfold Build.finishMetric
  exact Can.bind (.metric (h2.sub (h1.sub h3))) fun _ rr' _ h => .pure h

end Verif
