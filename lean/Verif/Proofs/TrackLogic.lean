import Verif.Proofs.CircuitsNCan
import Verif.Proofs.SlaterRun

/-!
# Executions of builders with given values, and the points at which they evaluate the functions

`Trk c rr bs Q`: as `Can c rr Q`, and the calls of `c` are standard, add no constraint, and evaluate the functions at known registers.
-/

namespace Verif
open Build Heap
open scoped InnerProductSpace

variable {α β σ : Type}

/-- which functions are declared ones, after some calls -/
def declAll (bs : List Bool) (is : List Instr) : List Bool := is.foldl (fun b i => i.declares b) bs

theorem declAll_append (bs : List Bool) (a b : List Instr) : declAll bs (a ++ b) = declAll (declAll bs a) b := by simp [declAll]

theorem standardFrom_append (a b : List Instr) (bs : List Bool) : standardFrom bs (a ++ b) = (standardFrom bs a && standardFrom (declAll bs a) b) := by
  induction a generalizing bs with
  | nil => simp [standardFrom, declAll]
  | cons i is ih => simp [standardFrom, ih, declAll, Bool.and_assoc]

theorem callsFrom_append (k : ℕ) (a b : List Instr) (bs : List Bool) (n : Counts) :
    callsFrom k bs n (a ++ b) = callsFrom k bs n a ++ callsFrom k (declAll bs a) (after a n) b := by
  induction a generalizing bs n with
  | nil => simp [callsFrom, declAll, after]
  | cons i is ih => simp [callsFrom, ih, declAll, after]

theorem decls_count (is : List Instr) (bs : List Bool) : (declAll bs is).count true = bs.count true + (decls is).length := by
  induction is generalizing bs with
  | nil => simp [declAll, decls]
  | cons i is ih =>
    have := ih (i.declares bs)
    simp only [declAll, List.foldl_cons] at this ⊢
    rw [this]
    cases i <;> simp [Instr.declares, decls] <;> omega

/-- a call that neither makes nor evaluates a function and adds no constraint -/
def Instr.Quiet : Instr → Bool
  | .pt _ | .ex _ | .initial | .metric _ => true
  | _ => false

theorem quiet_facts {is : List Instr} (h : ∀ i ∈ is, i.Quiet = true) (bs : List Bool) (n : Counts) :
    standardFrom bs is = true ∧ declAll bs is = bs ∧ ∀ k, callsFrom k bs n is = [] := by
  induction is generalizing n with
  | nil => simp [standardFrom, declAll, callsFrom]
  | cons i is ih =>
    have h1 := h i (by simp)
    obtain ⟨a, b, c⟩ := ih (fun j hj => h j (by simp [hj])) (i.next n)
    cases i <;> simp [Instr.Quiet] at h1 <;> simp_all [standardFrom, declAll, callsFrom, Instr.Standard, Instr.declares, Instr.callsOf]

variable {E : Type} [NormedAddCommGroup E] [InnerProductSpace ℝ E]

section
variable (W : Set Name) (D : FnDecl) (SR : ℕ → E → E → ℝ → Prop) (env : Name → ℝ)

def Trk (c : Build α) (rr : RRegs E) (bs : List Bool) (Q : α → RRegs E → List Bool → (ℕ → List ℕ) → Prop) : Prop :=
  Can W D SR env c rr fun a rr' => rr'.cons = rr.cons ∧ standardFrom bs (c rr.counts).2.2 = true ∧
    Q a rr' (declAll bs (c rr.counts).2.2) fun k => callsFrom k bs rr.counts (c rr.counts).2.2
end

variable {W : Set Name} {D : FnDecl} {SR : ℕ → E → E → ℝ → Prop} {env : Name → ℝ} {rr rr' : RRegs E} {bs : List Bool}

theorem Trk.ret {a : α} {Q : α → RRegs E → List Bool → (ℕ → List ℕ) → Prop} (h : Q a rr bs fun _ => []) : Trk W D SR env (ret a) rr bs Q :=
  Can.ret ⟨rfl, rfl, h⟩

theorem Trk.mono {c : Build α} {Q Q' : α → RRegs E → List Bool → (ℕ → List ℕ) → Prop} (h : Trk W D SR env c rr bs Q)
    (hq : ∀ a rr' bs' v, rr.Prefix rr' → Q a rr' bs' v → Q' a rr' bs' v) : Trk W D SR env c rr bs Q' :=
  Can.mono h fun _ _ p ⟨h1, h2, h3⟩ => ⟨h1, h2, hq _ _ _ _ p h3⟩

theorem Trk.andThen {c : Build α} {f : α → Build β} {P : α → RRegs E → List Bool → (ℕ → List ℕ) → Prop}
    {Q : β → RRegs E → List Bool → (ℕ → List ℕ) → Prop} (h : Trk W D SR env c rr bs P)
    (hf : ∀ a rr' bs' v, rr.Prefix rr' → P a rr' bs' v → Trk W D SR env (f a) rr' bs' fun b rr'' bs'' v' => Q b rr'' bs'' fun k => v k ++ v' k) :
    Trk W D SR env (andThen c f) rr bs Q := by
  obtain ⟨rr', h1, h2, h3, h4, h5, h6, h7, h8⟩ := h
  obtain ⟨rr'', g1, g2, g3, g4, g5, g6, g7, g8⟩ := hf _ rr' _ _ (exec_prefix h1) h8
  refine ⟨rr'', ?_, ?_, ?_, ?_, fun h => g5 (h5 h), g6.trans h6, ?_, ?_⟩ <;> simp only [Build.andThen, h2]
  · exact h1.append g1
  · exact g2
  · rw [safeProg_append, h3, ← exec_counts h1, g3]; rfl
  · intro i hi
    rcases List.mem_append.1 hi with hi | hi
    · exact h4 i hi
    · exact g4 i hi
  · rw [standardFrom_append, h7, g7]; rfl
  · simp only [declAll_append, callsFrom_append, ← exec_counts h1]; exact g8

theorem Trk.bind {c : Build α} {f : α → Build β} {P : α → RRegs E → List Bool → (ℕ → List ℕ) → Prop}
    {Q : β → RRegs E → List Bool → (ℕ → List ℕ) → Prop} (h : Trk W D SR env c rr bs P)
    (hf : ∀ a rr' bs' v, rr.Prefix rr' → P a rr' bs' v → Trk W D SR env (f a) rr' bs' fun b rr'' bs'' v' => Q b rr'' bs'' fun k => v k ++ v' k) :
    Trk W D SR env (c >>= f) rr bs Q := h.andThen hf

theorem cons_of_quiet {is : List Instr} {rr rr' : RRegs E} (h : Exec SR env is rr rr') (hq : ∀ i ∈ is, i.Quiet = true) : rr'.cons = rr.cons := by
  induction h with
  | nil => rfl
  | @cons i is _ _ _ s _ ih =>
    rw [ih fun j hj => hq j (by simp [hj])]
    have := hq i (by simp)
    cases s <;> first | rfl | simp [Instr.Quiet] at this

/-- calls that neither make nor evaluate functions -/
theorem Trk.quiet {c : Build α} {Q : α → RRegs E → Prop} (h : Can W D SR env c rr Q) (hq : ∀ n, ∀ i ∈ (c n).2.2, i.Quiet = true) :
    Trk W D SR env c rr bs fun a rr' bs' v => Q a rr' ∧ bs' = bs ∧ ∀ k, v k = [] := by
  obtain ⟨rr', h1, h2, h3, h4, h5, h6⟩ := h
  obtain ⟨a, b, c⟩ := quiet_facts (hq rr.counts) bs rr.counts
  exact ⟨rr', h1, h2, h3, h4, h5, cons_of_quiet h1 (hq _), a, h6, b, c⟩

variable (rr W env) in
/-- `e` is the point in the register `i` and has the value `v` -/
def IsReg (e : PE) (i : ℕ) (v : E) : Prop := e = .reg i ∧ IsPt W env rr e v

theorem IsReg.mono {e : PE} {i : ℕ} {v : E} (h : IsReg W env rr e i v) (hp : rr.Prefix rr') : IsReg W env rr' e i v := ⟨h.1, h.2.mono hp⟩

theorem IsReg.getD {e : PE} {i : ℕ} {v : E} (h : IsReg W env rr e i v) : i < rr.pts.length ∧ rr.pts.getD i 0 = v := by
  obtain ⟨rfl, h1, h2⟩ := h
  exact ⟨by simpa [RRegs.counts] using h1.1, h2⟩

theorem Can.result {c : Build α} {Q : α → RRegs E → Prop} (h : Can W D SR env c rr Q) :
    Can W D SR env c rr fun a rr' => a = (c rr.counts).1 ∧ Q a rr' := by
  obtain ⟨rr', h1, h2, h3, h4, h5, h6⟩ := h
  exact ⟨rr', h1, h2, h3, h4, h5, rfl, h6⟩

/-- calls of a builder that neither make nor evaluate functions -/
def QuietB (c : Build α) : Prop := ∀ n, ∀ i ∈ (c n).2.2, i.Quiet = true

theorem QuietB.ret (a : α) : QuietB (ret a) := by simp [QuietB, Build.ret]
theorem QuietB.pure (a : α) : QuietB (pure a) := .ret a
theorem QuietB.emit {i : Instr} (h : i.Quiet = true) (a : Counts → α) : QuietB (emit i a) := by
  intro n j hj
  simp only [Build.emit, List.mem_singleton] at hj
  rw [hj]; exact h
theorem QuietB.andThen {c : Build α} {f : α → Build β} (h : QuietB c) (h' : ∀ a, QuietB (f a)) : QuietB (andThen c f) := by
  intro n i hi
  simp only [Build.andThen] at hi
  rcases List.mem_append.1 hi with hi | hi
  · exact h _ _ hi
  · exact h' _ _ _ hi
theorem QuietB.bind {c : Build α} {f : α → Build β} (h : QuietB c) (h' : ∀ a, QuietB (f a)) : QuietB (c >>= f) := .andThen h h'
theorem QuietB.loop {body : σ → α → Build σ} (h : ∀ s a, QuietB (body s a)) : ∀ (l : List α) (s : σ), QuietB (loop body l s)
  | [], _ => .ret _
  | a :: l, s => .andThen (h s a) (QuietB.loop h l)
theorem QuietB.mapB {body : α → Build β} (h : ∀ a, QuietB (body a)) : ∀ l : List α, QuietB (mapB body l)
  | [] => .ret _
  | a :: l => .andThen (h a) fun _ => .andThen (QuietB.mapB h l) fun _ => .ret _
theorem QuietB.pt (e : PE) : QuietB (pt e) := .emit rfl _
theorem QuietB.ex (e : EE) : QuietB (ex e) := .emit rfl _
theorem QuietB.initial : QuietB initial := .emit rfl _
theorem QuietB.metric (e : EE) : QuietB (metric e) := .andThen (by cases e <;> first | exact .ret _ | exact .emit rfl _) fun _ => .emit rfl _
theorem QuietB.addTo (o : Option PE) (x : PE) : QuietB (addTo o x) := by cases o <;> first | exact .ret _ | exact .emit rfl _
theorem QuietB.subFrom (o : Option PE) (x : PE) : QuietB (subFrom o x) := by cases o <;> exact .emit rfl _
theorem QuietB.addEx (o : Option EE) (x : EE) : QuietB (addEx o x) := by cases o <;> exact .emit rfl _
theorem QuietB.finishMetric (a b c : EE) : QuietB (finishMetric a b c) := by
  unfold Build.finishMetric
  exact .bind (.metric _) fun _ => .pure _

theorem Trk.pt {e : PE} {v : E} (h : IsPt W env rr e v) : Trk W D SR env (pt e) rr bs fun r rr' bs' c =>
    (∃ i, IsReg W env rr' r i v) ∧ bs' = bs ∧ ∀ k, c k = [] :=
  Trk.quiet (Can.mono (Can.pt h).result fun _ _ _ ⟨h1, h2⟩ => ⟨_, h1, h2⟩) (QuietB.pt e)

theorem Trk.initial (x : E) : Trk W D SR env initial rr bs fun r rr' bs' c => (∃ i, IsReg W env rr' r i x) ∧ bs' = bs ∧ ∀ k, c k = [] :=
  Trk.quiet (Can.mono (Can.initial x).result fun _ _ _ ⟨h1, h2⟩ => ⟨_, h1, h2⟩) QuietB.initial

/-- `f` is the declared function number `i` -/
def IsDecl (bs : List Bool) (f : FE) (i : ℕ) : Prop := ∃ r, f = .reg r ∧ r < bs.length ∧ bs.getD r false = true ∧ declIndex bs r = i

theorem IsDecl.append {f : FE} {i : ℕ} (h : IsDecl bs f i) (l : List Bool) : IsDecl (bs ++ l) f i := by
  obtain ⟨r, h1, h2, h3, h4⟩ := h
  refine ⟨r, h1, by simp; omega, ?_, ?_⟩
  · rw [List.getD_eq_getElem?_getD, List.getElem?_append_left h2, ← List.getD_eq_getElem?_getD]; exact h3
  · rw [declIndex, List.take_append_of_le_length h2.le]; exact h4

theorem cons_of_none {is : List Instr} {rr rr' : RRegs E} (h : Exec SR env is rr rr') (hq : ∀ i ∈ is, ∀ e kd, i ≠ .constr e kd) : rr'.cons = rr.cons := by
  induction h with
  | nil => rfl
  | @cons i is _ _ _ s _ ih =>
    rw [ih fun j hj => hq j (by simp [hj])]
    have := hq i (by simp)
    cases s <;> first | rfl | exact absurd rfl (this _ _)

theorem Trk.of_can {c : Build α} {Q : α → RRegs E → Prop} (h : Can W D SR env c rr Q) (hq : ∀ i ∈ (c rr.counts).2.2, ∀ e kd, i ≠ .constr e kd)
    (hs : standardFrom bs (c rr.counts).2.2 = true) : Trk W D SR env c rr bs fun a rr' bs' v => Q a rr' ∧ a = (c rr.counts).1 ∧
      bs' = declAll bs (c rr.counts).2.2 ∧ ∀ k, v k = callsFrom k bs rr.counts (c rr.counts).2.2 := by
  obtain ⟨rr', h1, h2, h3, h4, h5, h6⟩ := h
  exact ⟨rr', h1, h2, h3, h4, h5, cons_of_none h1 hq, hs, h6, rfl, rfl, fun _ => rfl⟩

theorem Trk.oracle {f : FE} {i j : ℕ} {w : ℕ →₀ ℝ} {x : PE} {u g : E} {v : ℝ} (hd : IsDecl bs f i) (hf : IsFn rr f w) (hx : IsReg W env rr x j u)
    (h : SumSample SR w u g v) : Trk W D SR env (Build.oracle f x) rr bs fun r rr' bs' c => IsPt W env rr' r.1 g ∧ bs' = bs ∧
      ∀ k, c k = if i = k then [j] else [] := by
  obtain ⟨r, rfl, h2, h3, h4⟩ := hd
  have hc := Can.oracle (D := D) hf hx.2 h
  obtain ⟨rfl, hx⟩ := hx
  refine (Trk.of_can (bs := bs) hc ?_ ?_).mono fun a rr' bs' c p ⟨⟨b1, _⟩, _, b3, b4⟩ => ⟨b1, b3, fun k => ?_⟩
  · simp [Build.oracle, Build.andThen, fnArg, ptArg, Build.ret, emit]
  · simp [Build.oracle, Build.andThen, fnArg, ptArg, Build.ret, emit, standardFrom, Instr.Standard] at h3 ⊢; exact h3
  · rw [b4]; simp [Build.oracle, Build.andThen, fnArg, ptArg, Build.ret, emit, callsFrom, Instr.callsOf, h4]

/-- a stationary point of a sum, or of the only function -/
theorem Trk.stationary {f : FE} {w : ℕ →₀ ℝ} {x : E} {v : ℝ} {r m : ℕ} (hfr : f = .reg r) (hm : ∀ k < m, bs.getD r false = true → declIndex bs r = k)
    (hf : IsFn rr f w) (h : SumSample SR w x 0 v) : Trk W D SR env (Build.stationary f) rr bs fun r rr' bs' c =>
      (∃ j, IsReg W env rr' r.1 j x ∧ ∀ k < m, c k = [j]) ∧ IsPt W env rr' r.2.1 0 ∧ bs' = bs := by
  subst hfr
  refine (Trk.of_can (bs := bs) (Can.stationary (D := D) hf h) ?_ ?_).mono fun a rr' bs' c p ⟨⟨b1, b2, _⟩, b5, b3, b4⟩ =>
    ⟨⟨rr.counts.np, ⟨congrArg Prod.fst b5, b1⟩, fun k hk => ?_⟩, b2, b3⟩
  · simp [Build.stationary, Build.andThen, fnArg, Build.ret, emit]
  · simp [Build.stationary, Build.andThen, fnArg, Build.ret, emit, standardFrom, Instr.Standard]
  · rw [b4]
    have := hm k hk
    show (if bs.getD r false = true ∧ declIndex bs r ≠ k then [] else [rr.counts.np]) ++ [] = [rr.counts.np]
    rw [if_neg (by rintro ⟨h1, h2⟩; exact h2 (this h1))]
    rfl

theorem declAll_length (is : List Instr) (n : Counts) (h : bs.length = n.nf) : (declAll bs is).length = (after is n).nf := by
  induction is generalizing bs n with
  | nil => exact h
  | cons i is ih =>
    refine ih (i.next n) ?_
    cases i <;> simp [Instr.declares, Instr.next, h]

theorem Trk.len {c : Build α} {Q : α → RRegs E → List Bool → (ℕ → List ℕ) → Prop} (h : Trk W D SR env c rr bs Q) (hl : bs.length = rr.counts.nf) :
    Trk W D SR env c rr bs fun a rr' bs' v => Q a rr' bs' v ∧ bs'.length = rr'.counts.nf := by
  obtain ⟨rr', h1, h2, h3, h4, h5, h6, h7, h8⟩ := h
  exact ⟨rr', h1, h2, h3, h4, h5, h6, h7, h8, by rw [exec_counts h1]; exact declAll_length _ _ hl⟩

theorem Trk.define {mu : ℚ} {L : Option ℚ} (hD : defDecl mu L = D) (hl : bs.length = rr.counts.nf) : Trk W D SR env (Build.define mu L) rr bs
    fun r rr' bs' c => IsFn rr' r (Finsupp.single rr.ndecl 1) ∧ rr'.ndecl = rr.ndecl + 1 ∧ bs' = bs ++ [true] ∧ IsDecl bs' r (bs.count true) ∧
      ∀ k, c k = [] := by
  refine (Trk.of_can (bs := bs) (Can.define hD) ?_ ?_).mono fun a rr' bs' c p ⟨⟨b1, b2⟩, b5, b3, b4⟩ => ⟨b1, b2, b3, ⟨rr.counts.nf, b5, ?_⟩, fun k => ?_⟩
  · simp [Build.define, emit]
  · simp [Build.define, emit, standardFrom, Instr.Standard]
  · rw [b3, ← hl]
    simp [Build.define, emit, declAll, Instr.declares, declIndex]
  · rw [b4]; simp [Build.define, emit, callsFrom, Instr.callsOf]

theorem Trk.fn {f : FE} {w : ℕ →₀ ℝ} (h : IsFn rr f w) (hp : f.Positive bs.length = true) (hl : bs.length = rr.counts.nf) :
    Trk W D SR env (Build.fn f) rr bs fun r rr' bs' c => IsFn rr' r w ∧ rr'.ndecl = rr.ndecl ∧ bs' = bs ++ [false] ∧
      (∃ i, r = .reg i ∧ i < bs'.length ∧ bs'.getD i false = false) ∧ ∀ k, c k = [] := by
  refine (Trk.of_can (bs := bs) (Can.fn h) ?_ ?_).mono fun a rr' bs' c p ⟨⟨b1, b2⟩, b5, b3, b4⟩ => ⟨b1, b2, b3, ⟨rr.counts.nf, b5, ?_⟩, fun k => ?_⟩
  · simp [Build.fn, emit]
  · simp [Build.fn, emit, standardFrom, Instr.Standard, hp]
  · rw [b3, ← hl]
    simp [Build.fn, emit, declAll, Instr.declares]
  · rw [b4]; simp [Build.fn, emit, callsFrom, Instr.callsOf]

/-- loops: an invariant that survives every round; `j` counts the rounds -/
theorem Trk.loop {body : σ → α → Build σ} (I : ℕ → σ → RRegs E → List Bool → (ℕ → List ℕ) → Prop) : ∀ {l : List α} {s : σ} {j : ℕ} {rr : RRegs E}
    {bs : List Bool} {v : ℕ → List ℕ}, I j s rr bs v →
    (∀ s a i rr' bs' v', l[i]? = some a → rr.Prefix rr' → I (j + i) s rr' bs' v' → Trk W D SR env (body s a) rr' bs'
      fun s' rr'' bs'' v'' => I (j + i + 1) s' rr'' bs'' fun k => v' k ++ v'' k) →
    Trk W D SR env (loop body l s) rr bs fun s' rr' bs' v' => I (j + l.length) s' rr' bs' fun k => v k ++ v' k
  | [], _, _, _, _, _, h, _ => .ret (by simpa using h)
  | a :: l, s, j, rr, bs, v, h, hb => (hb s a 0 rr bs v rfl .rfl h).andThen fun s' rr' bs' v' hp hs =>
      (Trk.loop I (l := l) hs fun s a i rr'' bs'' v'' hi hp' h => by
        have := hb s a (i + 1) rr'' bs'' v'' hi (hp.trans hp') (by rwa [show j + (i + 1) = j + 0 + 1 + i by omega])
        rwa [show j + (i + 1) + 1 = j + 0 + 1 + i + 1 by omega] at this).mono
        fun _ _ _ _ _ ht => by
          rw [List.length_cons, show j + (l.length + 1) = j + 0 + 1 + l.length by omega]
          simpa [List.append_assoc] using ht

/-- the functions and their sum -/
structure Sums (bs : List Bool) (fs : List FE) (f : FE) (m : ℕ) : Prop where
  decl : ∀ i e, fs[i]? = some e → IsDecl bs e i
  count : bs.count true = m
  reg : ∃ r, f = .reg r ∧ r < bs.length ∧ ∀ k < m, bs.getD r false = true → declIndex bs r = k

theorem Trk.defineSum {mu : ℚ} {L : Option ℚ} (hD : defDecl mu L = D) (m : ℕ) (h0 : rr.ndecl = 0) (hb : rr.counts.nf = 0) :
    Trk W D SR env (defineSum mu L m) rr [] fun r rr' bs' c => IsFns rr' r.1 (m + 1) (fun i => Finsupp.single i 1) ∧
      IsFn rr' r.2 (∑ i ∈ Finset.range (m + 1), Finsupp.single i 1) ∧ Sums bs' r.1 r.2 (m + 1) ∧ ∀ k, c k = [] := by
  unfold Build.defineSum
  refine Trk.bind ((Trk.define hD (by simpa using hb.symm)).len (by simpa using hb.symm)) ?_
  rintro f0 rr1 bs1 v1 hp ⟨⟨h1, h2, h3, h4, h5⟩, h6⟩
  rw [h0] at h1 h2
  obtain rfl : v1 = fun _ => [] := funext h5
  have hone : bs1.count true = 1 := by simp [h3]
  refine (Trk.loop (fun j s rr bs v => IsFns rr s.1 (j + 1) (fun i => Finsupp.single i 1) ∧
    IsFn rr s.2 (∑ i ∈ Finset.range (j + 1), Finsupp.single i 1) ∧ rr.ndecl = j + 1 ∧ Sums bs s.1 s.2 (j + 1) ∧ bs.length = rr.counts.nf ∧ ∀ k, v k = [])
    (l := List.range m) (s := ([f0], f0)) (j := 0) (v := fun _ => [])
    ⟨⟨rfl, ?_⟩, ?_, by simpa using h2, ⟨?_, hone, ?_⟩, h6, fun _ => rfl⟩ ?_).mono ?_
  · intro i e he
    cases i with
    | zero => simp at he; subst he; exact h1
    | succ i => simp at he
  · simpa using h1
  · intro i e he
    cases i with
    | zero => simp at he; subst he; exact h4
    | succ i => simp at he
  · obtain ⟨r, e1, e2, e3, e4⟩ := h4
    exact ⟨r, e1, e2, fun k hk _ => by rw [e4]; simp; omega⟩
  · rintro ⟨l, f⟩ a i rr' bs' v' hi p ⟨a1, a2, a3, a4, a5, a6⟩
    simp only [zero_add] at *
    refine Trk.bind ((Trk.define hD a5).len a5) ?_
    rintro g rr2 bs2 v2 p2 ⟨⟨b1, b2, b3, b4, b5⟩, b6⟩
    obtain ⟨rf, c1, c2, c3⟩ := a4.reg
    obtain ⟨rg, d1, d2, d3, d4⟩ := b4
    have hpos : (f + g : FE).Positive bs2.length = true := by
      subst c1 d1
      show (decide (rf < bs2.length) && decide (rg < bs2.length)) = true
      simp [d2]
      rw [b3]; simp; omega
    refine Trk.bind ((Trk.fn ((a2.mono p2).add b1) hpos b6).len b6) ?_
    rintro q rr3 bs3 v3 p3 ⟨⟨e1, e2, e3, ⟨rq, e4, e5, e6⟩, e7⟩, e8⟩
    refine Trk.ret ⟨IsFns.append ((a1.mono p2).mono p3) ?_, ?_, ?_, ⟨?_, ?_, ?_⟩, e8, fun k => ?_⟩
    · rw [a3] at b1; exact b1.mono p3
    · rw [a3] at e1; rw [Finset.sum_range_succ]; exact e1
    · rw [e2, b2, a3]
    · intro k e he
      simp only at he
      by_cases hk : k < l.length
      · rw [List.getElem?_append_left hk] at he
        rw [e3, b3]
        exact ((a4.decl k e he).append _).append _
      · obtain ⟨hl, _⟩ := List.getElem?_eq_some_iff.1 he
        have hl : k = l.length := by simp at hl; omega
        subst hl
        simp at he
        subst he
        rw [e3]
        refine IsDecl.append ⟨rg, d1, d2, d3, ?_⟩ _
        rw [d4, a4.count]
        exact a1.1.symm
    · rw [e3, b3]; simp [a4.count]
    · exact ⟨rq, e4, e5, fun k _ h => by rw [e6] at h; cases h⟩
    · simp [a6, b5, e7]
  · intro r rr' bs' v p h
    simp only [List.length_range, zero_add, List.nil_append] at h
    exact ⟨h.1, h.2.1, h.2.2.2.1, fun k => by simpa using h.2.2.2.2.2 k⟩

end Verif
