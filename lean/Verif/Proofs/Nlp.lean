import Verif.Proofs.Dual
import Verif.Proofs.Casadi
import Verif.Props.Casadi

/-!
# The nonlinear program of `solve_ipopt`
-/

namespace Verif

variable {C : CAS}

/-- well formed, no product variables yet -/
structure Good (st : CaState) : Prop where
  wf : st.Wf
  plain : st.PlainKeys

theorem Good.newVar {st : CaState} (g : Good st) {n : Name} (hn : Plain n) (a b : ℕ) : Good (st.newVar n a b) := by
  refine ⟨⟨Dict.nodup_set g.wf.nodup _ _, ?_, ?_⟩, ?_⟩
  · have h1 : Dict.All (fun _ (v : CaVar) => v.id < st.sizes.length + 1) st.vars := fun kv hkv => Nat.lt_succ_of_lt (g.wf.ids kv hkv)
    intro kv hkv
    have := Dict.All.set h1 (k := n) (v := ⟨st.sizes.length, a, b⟩) (Nat.lt_succ_self _) kv hkv
    simpa [CaState.newVar] using this
  · intro c hc
    refine (g.wf.cons c hc).mono ?_
    simp [CaState.newVar]
  · intro m hm
    rcases (Dict.mem_keys_set _ _ _ _).1 hm with h | h
    · exact g.plain m h
    · rw [h]; exact hn

theorem Good.subjectAll {st : CaState} (g : Good st) {cs : List Constr} (h : ∀ c ∈ cs, c.Below st.sizes.length) : Good (st.subjectAll cs) := by
  refine ⟨⟨g.wf.nodup, g.wf.ids, ?_⟩, g.plain⟩
  intro c hc
  rcases List.mem_append.1 hc with h1 | h1
  · exact g.wf.cons c h1
  · exact h c h1

theorem scalar_below {st : CaState} (w : st.Wf) {n : Name} {x : CExp} (h : st.scalar n = .ok x) : x.Below st.sizes.length := by
  obtain ⟨v, hv, rfl⟩ := scalar_inv h
  exact w.ids _ (Dict.mem_of_get? hv)

theorem invLoop_good : ∀ (l : List Name) {st st' : CaState}, (∀ n ∈ l, Plain n) → Good st → invLoop l st = .ok st' → Good st' := by
  intro l
  induction l with
  | nil => intro st st' _ g h; rw [invLoop] at h; injection h with h; rw [← h]; exact g
  | cons n l ih =>
    intro st st' hp g h
    rw [invLoop] at h
    obtain ⟨st1, h1, h⟩ := Except.bind_ok_iff.1 h
    refine ih (fun m hm => hp m (by simp [hm])) ?_ h
    rw [invStep] at h1
    obtain ⟨v, hv, h1⟩ := Except.bind_ok_iff.1 h1
    obtain ⟨iv, hiv, h1⟩ := Except.bind_ok_iff.1 h1
    injection h1 with h1
    have hn := hp n (by simp)
    have g2 : Good ((st.newVar n 1 1).newVar ("inv" ++ n) 1 1) := (g.newVar hn 1 1).newVar (by
      rw [Plain, String.toList_append] at *; simpa using hn) 1 1
    have b1 := scalar_below g2.wf hv
    have b2 := scalar_below g2.wf hiv
    rw [← h1]
    have := g2.subjectAll (cs := [.eq (.mul v iv) (.num 1), .ge v (.num (1 / 10000000))]) (by
      intro c hc
      rcases List.mem_cons.1 hc with rfl | hc
      · exact ⟨⟨b1, b2⟩, trivial⟩
      · rw [List.mem_singleton] at hc; subst hc; exact ⟨b1, trivial⟩)
    simpa [CaState.subjectAll, CaState.subjectTo] using this

theorem invParams_plain {params : List Name} (h : ∀ n ∈ params, Plain n) : ∀ n ∈ invParams params, Plain n := by
  intro n hn
  rw [invParams, List.mem_map] at hn
  obtain ⟨m, hm, rfl⟩ := hn
  have := h m (List.mem_filter.1 hm).1
  rw [Plain] at *
  rw [String.toList_ofList]
  exact fun hh => this (List.mem_of_mem_drop hh)

theorem addParams_good {params : List Name} : ∀ {st : CaState}, (∀ n ∈ params, Plain n) → Good st → Good (addParams params st) := by
  unfold addParams
  induction params with
  | nil => intro st _ g; exact g
  | cons n l ih =>
    intro st hp g
    rw [List.foldl_cons]
    refine ih (fun m hm => hp m (by simp [hm])) ?_
    split
    · exact g
    · exact g.newVar (hp n (by simp)) 1 1

theorem ipoptInit_good (dimG : ℕ) : Good (ipoptInit dimG) := by
  have g0 : Good ⟨[], [], []⟩ := ⟨⟨by simp [Dict.NodupKeys], by simp, by simp⟩, by intro n hn; simp at hn⟩
  have hl : ∀ (l : List Name) (st : CaState), (∀ n ∈ l, Plain n) → Good st → Good (l.foldl (fun (st : CaState) n => st.newVar n 1 1) st) := by
    intro l
    induction l with
    | nil => intro st _ g; exact g
    | cons n l ih => intro st hp g; exact ih _ (fun m hm => hp m (by simp [hm])) (g.newVar (hp n (by simp)) 1 1)
  exact (hl _ _ (by decide +kernel) g0).newVar (by decide +kernel) dimG dimG

theorem entries_below {n : ℕ} {v : CaVar} (h : v.id < n) : ∀ x ∈ v.entries, x.Below n := by
  intro x hx
  rw [CaVar.entries, List.mem_flatMap] at hx
  obtain ⟨i, -, hx⟩ := hx
  obtain ⟨j, -, rfl⟩ := List.mem_map.1 hx
  exact h

theorem boundCons_below {n : ℕ} {xs : List CExp} (h : ∀ x ∈ xs, x.Below n) (b : Bound) : ∀ c ∈ boundCons xs b, c.Below n := by
  intro c hc
  rcases List.mem_append.1 hc with hc | hc
  · split at hc
    · obtain ⟨x, hx, rfl⟩ := List.mem_map.1 hc; exact ⟨trivial, h x hx⟩
    · simp at hc
  · split at hc
    · obtain ⟨x, hx, rfl⟩ := List.mem_map.1 hc; exact ⟨h x hx, trivial⟩
    · simp at hc

theorem addBounds_below {n : ℕ} {look : Name → Option (List CExp)} (hl : ∀ m xs, look m = some xs → ∀ x ∈ xs, x.Below n) :
    ∀ (bs : List Bound) {this : Option (List CExp)} {cs : List Constr}, (∀ xs, this = some xs → ∀ x ∈ xs, x.Below n) →
      addBounds look bs this = .ok cs → ∀ c ∈ cs, c.Below n := by
  intro bs
  induction bs with
  | nil => intro this cs _ h; rw [addBounds] at h; injection h with h; rw [← h]; simp
  | cons b bs ih =>
    intro this cs ht h
    rw [addBounds] at h
    have ht' : ∀ xs, (match look b.name with | some x => some x | none => this) = some xs → ∀ x ∈ xs, x.Below n := by
      intro xs hxs
      split at hxs
      · rename_i y hy; injection hxs with hxs; subst hxs; exact hl _ _ hy
      · exact ht xs hxs
    split at h
    · exact ih ht' h
    · split at h
      · simp at h
      · obtain ⟨cs', h1, h⟩ := Except.bind_ok_iff.1 h
        injection h with h
        subst h
        intro c hc
        rcases List.mem_append.1 hc with hc | hc
        · exact boundCons_below (ht' _ (by assumption)) b c hc
        · exact ih ht' h1 c hc

theorem nonneg_below {n : ℕ} {v : CaVar} (h : v.id < n) : ∀ c ∈ nonneg v, c.Below n := by
  intro c hc
  obtain ⟨x, hx, rfl⟩ := List.mem_map.1 hc
  exact ⟨entries_below h x hx, trivial⟩

/-- the multiplier matrix `n` has this shape and its entries are constrained to be non-negative -/
def NonnegVar (st : CaState) (n : Name) (rows cols : ℕ) : Prop :=
  ∃ v, st.vars.get? n = some v ∧ v.rows = rows ∧ v.cols = cols ∧ ∀ c ∈ nonneg v, c ∈ st.cons

theorem newVar_get (st : CaState) (n m : Name) (a b : ℕ) :
    (st.newVar n a b).vars.get? m = if m = n then some ⟨st.sizes.length, a, b⟩ else st.vars.get? m := Dict.get?_set _ _ _ _

theorem Good.newNonneg {st : CaState} (g : Good st) {n : Name} (hn : Plain n) (a b : ℕ) :
    Good ((st.newVar n a b).subjectAll (nonneg ⟨st.sizes.length, a, b⟩)) ∧
    NonnegVar ((st.newVar n a b).subjectAll (nonneg ⟨st.sizes.length, a, b⟩)) n a b := by
  refine ⟨(g.newVar hn a b).subjectAll (nonneg_below (by simp [CaState.newVar])), ⟨st.sizes.length, a, b⟩, ?_, rfl, rfl, ?_⟩
  · show (st.newVar n a b).vars.get? n = _
    rw [newVar_get, if_pos rfl]
  · intro c hc; exact List.mem_append_right _ hc

theorem lambVar_inj {a b : ℕ} (h : lambVar a = lambVar b) : a = b := by
  have := congrArg String.toList h
  rw [lambVar, lambVar, String.toList_append, String.toList_append] at this
  exact digits_inj (List.append_cancel_left this)

theorem lambVar_plain (k : ℕ) : Plain (lambVar k) := by
  rw [Plain, lambVar, String.toList_append]
  rw [List.mem_append, not_or]
  exact ⟨by decide +kernel, fun h => absurd (digits_isDigit (k := k) h) (by decide)⟩

/-- what later steps keep of a state -/
structure Keeps' (p : Name → Prop) (st st' : CaState) : Prop where
  get : ∀ n, p n → st'.vars.get? n = st.vars.get? n
  cons : st.cons <+: st'.cons
  sizes : st.sizes <+: st'.sizes

theorem NonnegVar.keeps {p : Name → Prop} {st st' : CaState} (k : Keeps' p st st') {n : Name} (hp : p n) {a b : ℕ} (h : NonnegVar st n a b) :
    NonnegVar st' n a b := by
  obtain ⟨v, h1, h2, h3, h4⟩ := h
  exact ⟨v, by rw [k.get n hp]; exact h1, h2, h3, fun c hc => k.cons.subset (h4 c hc)⟩

theorem fnDuals_spec : ∀ (ns : List ℕ) (k : ℕ) {st : CaState}, Good st → Good (fnDuals ns k st) ∧
    Keeps' (fun n => ∀ j, k ≤ j → n ≠ lambVar j) st (fnDuals ns k st) ∧
    ∀ (idx n : ℕ), ns[idx]? = some n → NonnegVar (fnDuals ns k st) (lambVar (k + idx)) n n := by
  intro ns
  induction ns with
  | nil => intro k st g; exact ⟨g, ⟨fun _ _ => rfl, List.prefix_rfl, List.prefix_rfl⟩, fun idx n h => by simp at h⟩
  | cons a ns ih =>
    intro k st g
    rw [fnDuals]
    obtain ⟨g1, n1⟩ := g.newNonneg (lambVar_plain k) a a
    obtain ⟨g2, k2, n2⟩ := ih (k + 1) g1
    refine ⟨g2, ⟨?_, (List.prefix_append _ _).trans k2.cons, (List.prefix_append _ _).trans k2.sizes⟩, ?_⟩
    · intro n hn
      rw [k2.get n (fun j hj => hn j (by omega))]
      show (st.newVar (lambVar k) a a).vars.get? n = _
      rw [newVar_get, if_neg (hn k le_rfl)]
    · intro idx n hidx
      cases idx with
      | zero =>
        simp only [List.getElem?_cons_zero, Option.some.injEq] at hidx
        subst hidx
        exact n1.keeps k2 fun j hj hh => by have := lambVar_inj hh; omega
      | succ idx =>
        rw [show k + (idx + 1) = k + 1 + idx by omega]
        exact n2 idx n (by simpa using hidx)

theorem extraDuals_spec (nI nE : ℕ) {st : CaState} (g : Good st) : Good (extraDuals nI nE st) ∧
    st.cons <+: (extraDuals nI nE st).cons ∧ st.sizes <+: (extraDuals nI nE st).sizes ∧
    (1 ≤ nI → NonnegVar (extraDuals nI nE st) (lambVar 0) nI 1) := by
  have hl : lambVar 0 = "lamb0" := by decide +kernel
  have hnu : Plain "nu0" := by decide +kernel
  have hne : ("lamb0" : Name) ≠ "nu0" := by decide +kernel
  have key : ∀ (st1 : CaState), Good st1 → (if nE ≥ 1 then st1.newVar "nu0" nE 1 else st1) = (if nE ≥ 1 then st1.newVar "nu0" nE 1 else st1) ∧
      Good (if nE ≥ 1 then st1.newVar "nu0" nE 1 else st1) ∧
      Keeps' (fun n => n ≠ "nu0") st1 (if nE ≥ 1 then st1.newVar "nu0" nE 1 else st1) := by
    intro st1 g1
    refine ⟨rfl, ?_, ?_⟩
    · split
      · exact g1.newVar hnu _ _
      · exact g1
    · split
      · refine ⟨fun n hn => by rw [newVar_get, if_neg hn], List.prefix_rfl, List.prefix_append _ _⟩
      · exact ⟨fun _ _ => rfl, List.prefix_rfl, List.prefix_rfl⟩
  unfold extraDuals
  by_cases h1 : nI ≥ 1
  · rw [if_pos h1]
    obtain ⟨g1, n1⟩ := g.newNonneg (n := "lamb0") (by decide +kernel) nI 1
    obtain ⟨-, g2, k2⟩ := key _ g1
    refine ⟨g2, (List.prefix_append _ _).trans k2.cons, (List.prefix_append _ _).trans k2.sizes, fun _ => ?_⟩
    rw [hl]
    exact n1.keeps k2 hne
  · rw [if_neg h1]
    obtain ⟨-, g2, k2⟩ := key _ g
    exact ⟨g2, k2.cons, k2.sizes, fun hh => absurd hh h1⟩

theorem CaInv.subjectAll {st : CaState} (i : CaInv st) {cs : List Constr} (h : ∀ c ∈ cs, c.Below st.sizes.length) : CaInv (st.subjectAll cs) := by
  refine ⟨⟨i.wf.nodup, i.wf.ids, ?_⟩, ?_⟩
  · intro c hc
    rcases List.mem_append.1 hc with h1 | h1
    · exact i.wf.cons c h1
    · exact h c h1
  · intro σ hσ s hs
    exact i.lift σ (fun c hc => hσ c (List.mem_append_left _ hc)) s hs

/-- entry `(i, k)` of the lower triangular part of the matrix variable `pid` -/
def lowerOf (σ : ℕ → ℕ → ℕ → ℝ) (pid i k : ℕ) : ℝ := if k ≤ i then σ pid i k else 0

theorem eval_trilEntry (σ : ℕ → ℕ → ℕ → ℝ) (pid i k : ℕ) : (trilEntry pid i k).eval σ = lowerOf σ pid i k := by
  rw [trilEntry, lowerOf]; split
  · rfl
  · simp [CExp.eval]

theorem eval_pptEntry (σ : ℕ → ℕ → ℕ → ℝ) (pid n i j : ℕ) :
    (pptEntry pid n i j).eval σ = ∑ k ∈ Finset.range n, lowerOf σ pid i k * lowerOf σ pid j k := by
  rw [pptEntry]
  induction n with
  | zero => simp [CExp.eval]
  | succ n ih =>
    rw [List.range_succ, List.foldl_append, List.foldl_cons, List.foldl_nil, CExp.eval, ih, Finset.sum_range_succ, CExp.eval, eval_trilEntry,
      eval_trilEntry]

theorem pptEntry_below {pid m : ℕ} (h : pid < m) (n i j : ℕ) : (pptEntry pid n i j).Below m := by
  rw [pptEntry]
  induction n with
  | zero => trivial
  | succ n ih =>
    rw [List.range_succ, List.foldl_append, List.foldl_cons, List.foldl_nil]
    refine ⟨ih, ?_, ?_⟩ <;> (rw [trilEntry]; split) <;> first | exact h | trivial

theorem SpKey.name_plain {a k i j : ℕ} : Plain (SpKey.tup a k i j).name := by
  have hd : ∀ k, '_' ∉ digits k := fun k h => absurd (digits_isDigit h) (by decide)
  have hi : '_' ∉ idxChars i j := by simp [idxChars, hd]
  cases a with
  | zero =>
    show Plain (lambName k i j)
    rw [Plain, lambName_toList]
    simp [hd, hi]
  | succ a =>
    show Plain (nuName k i j)
    rw [Plain, nuName_toList]
    simp [hd, hi]

theorem symVal_lamb {st : CaState} {σ : ℕ → ℕ → ℕ → ℝ} {k i j : ℕ} {v : CaVar} (h : st.vars.get? (lambVar k) = some v) :
    st.symVal σ (lambName k i j) = σ v.id i j := by
  obtain ⟨h1, h2⟩ := C21_lamb k i j
  rw [CaState.symVal, if_pos (show IsDual _ from Or.inl h1), h2]
  simp only
  rw [show "lamb" ++ toString k = lambVar k from rfl, h]

theorem NonnegVar.symVal_nonneg {st : CaState} {σ : ℕ → ℕ → ℕ → ℝ} (hσ : st.Sat σ) {k rows cols i j : ℕ} (h : NonnegVar st (lambVar k) rows cols)
    (hi : i < rows) (hj : j < cols) : 0 ≤ st.symVal σ (lambName k i j) := by
  obtain ⟨v, h1, h2, h3, h4⟩ := h
  rw [symVal_lamb h1]
  have hm : Constr.ge (.var v.id i j) (.num 0) ∈ nonneg v := by
    rw [nonneg, List.mem_map]
    refine ⟨.var v.id i j, ?_, rfl⟩
    rw [CaVar.entries, List.mem_flatMap]
    exact ⟨i, List.mem_range.2 (by omega), List.mem_map.2 ⟨j, List.mem_range.2 (by omega), rfl⟩⟩
  have := hσ _ (h4 _ hm)
  simpa [Constr.Holds, CExp.eval] using this

variable {sm : SymMats} {cons : List (ExId × Kind)} {ns : List ℕ} {dimG dimF : ℕ} {params : List Name} {bounds : List Bound} {init : List Name} {goal : Sym}
  {nlp : Nlp}

theorem mem_fnKeys_inv {key : SpKey} : ∀ {ns : List ℕ} {s : ℕ}, key ∈ fnKeys ns s → ∃ idx n i j, ns[idx]? = some n ∧ key = .tup 0 (s + idx) i j ∧ i < n ∧ j < n := by
  intro ns
  induction ns with
  | nil => intro s h; simp [fnKeys] at h
  | cons n ns ih =>
    intro s h
    rcases List.mem_append.1 h with h | h
    · obtain ⟨⟨i, j⟩, hij, rfl⟩ := List.mem_map.1 h
      obtain ⟨h1, h2, -⟩ := mem_offDiag.1 hij
      exact ⟨0, n, i, j, rfl, rfl, h1, h2⟩
    · obtain ⟨idx, m, i, j, h1, h2, h3⟩ := ih h
      exact ⟨idx + 1, m, i, j, by simpa using h1, by rw [h2]; congr 1; omega, h3⟩

theorem length_cons (cons : List (ExId × Kind)) : cons.length = (ineqCons cons).length + (eqCons cons).length := by
  induction cons with
  | nil => rfl
  | cons c cons ih =>
    obtain ⟨e, k⟩ := c
    cases k <;> simp [ineqCons, eqCons] at ih ⊢ <;> omega

/-- the state before the dual equations: all multipliers of inequalities are non-negative -/
structure Ready (cons : List (ExId × Kind)) (ns : List ℕ) (pid : ℕ) (st : CaState) : Prop where
  good : Good st
  pid : pid < st.sizes.length
  extra : 1 ≤ (ineqCons cons).length → NonnegVar st (lambVar 0) (ineqCons cons).length 1
  fns : ∀ (idx n : ℕ), ns[idx]? = some n → NonnegVar st (lambVar (fnShift cons + idx)) n n

theorem duals_ready {st : CaState} (g : Good st) {pid : ℕ} (hp : pid < st.sizes.length) (cons : List (ExId × Kind)) (ns : List ℕ) :
    Ready cons ns pid (fnDuals ns (fnShift cons) (extraDuals (ineqCons cons).length (eqCons cons).length st)) := by
  obtain ⟨g1, c1, s1, n1⟩ := extraDuals_spec (ineqCons cons).length (eqCons cons).length g
  obtain ⟨g2, k2, n2⟩ := fnDuals_spec ns (fnShift cons) g1
  refine ⟨g2, ?_, fun h1 => ?_, n2⟩
  · exact lt_of_lt_of_le hp (s1.length_le.trans k2.sizes.length_le)
  · refine (n1 h1).keeps k2 fun j hj hh => ?_
    have := lambVar_inj hh
    rw [fnShift, if_pos h1] at hj
    omega

theorem Ready.nonneg {pid : ℕ} {st : CaState} (rd : Ready cons ns pid st) {σ} (hσ : st.Sat σ) {k i j : ℕ}
    (hk : SpKey.tup 0 k i j ∈ expectedKeys cons ns) : 0 ≤ st.symVal σ (lambName k i j) := by
  rw [expectedKeys] at hk
  rcases List.mem_append.1 hk with hk | hk
  · rcases List.mem_append.1 hk with hk | hk
    · rcases List.mem_append.1 hk with hk | hk
      · obtain ⟨i', hi', hk⟩ := List.mem_map.1 hk
        simp only [SpKey.tup.injEq, true_and] at hk
        obtain ⟨rfl, rfl, rfl⟩ := hk
        have := List.mem_range.1 hi'
        exact (rd.extra (by omega)).symVal_nonneg hσ this (by omega)
      · obtain ⟨idx, n, i', j', h1, h2, h3, h4⟩ := mem_fnKeys_inv hk
        simp only [SpKey.tup.injEq, true_and] at h2
        obtain ⟨rfl, rfl, rfl⟩ := h2
        exact (rd.fns idx n h1).symVal_nonneg hσ h3 h4
    · obtain ⟨i', hi', hk⟩ := List.mem_map.1 hk
      simp at hk
  · simp at hk

theorem ipoptNlp_inv (h : ipoptNlp C sm ns cons.length dimG dimF params bounds init goal = .ok nlp) (hE : sm.nE = (eqCons cons).length)
    (hpl : ∀ n ∈ params, Plain n) :
    ∃ st pid, Ready cons ns pid st ∧ ipoptFinish C sm dimG dimF pid init goal st = .ok nlp := by
  have hlen := length_cons cons
  rw [ipoptNlp] at h
  obtain ⟨st1, h1, h⟩ := Except.bind_ok_iff.1 h
  have g1 := addParams_good (params := params) hpl (invLoop_good _ (invParams_plain hpl) (ipoptInit_good dimG) h1)
  simp only at h
  split at h
  swap
  · cases h
  rename_i p hpv
  obtain ⟨p', hp, h⟩ := Except.bind_ok_iff.1 h
  injection hp with hp
  subst hp
  obtain ⟨-, -, h⟩ := Except.bind_ok_iff.1 h
  have hpid : p.id < (addParams params st1).sizes.length := g1.wf.ids _ (Dict.mem_of_get? hpv)
  have g2 := g1.subjectAll (cs := (List.range dimG).map fun i => .ge (.var p.id i i) (.num 0)) (by
    intro c hc
    obtain ⟨i, -, rfl⟩ := List.mem_map.1 hc
    exact ⟨hpid, trivial⟩)
  obtain ⟨bs, hbs, h⟩ := Except.bind_ok_iff.1 h
  have g3 := g2.subjectAll (cs := bs) (addBounds_below (by
    intro m xs hm
    obtain ⟨v, hv, rfl⟩ := Option.map_eq_some_iff.1 hm
    exact entries_below (g2.wf.ids _ (Dict.mem_of_get? hv))) bounds (by simp) hbs)
  obtain ⟨x1, hx1, h⟩ := Except.bind_ok_iff.1 h
  obtain ⟨x2, hx2, h⟩ := Except.bind_ok_iff.1 h
  obtain ⟨x3, hx3, h⟩ := Except.bind_ok_iff.1 h
  have g4 := g3.subjectAll (cs := [.ge x1 (.num 0), .ge x2 (.num 0), .ge x3 (.num 0)]) (by
    intro c hc
    simp only [List.mem_cons, List.not_mem_nil, or_false] at hc
    rcases hc with rfl | rfl | rfl
    · exact ⟨scalar_below g3.wf hx1, trivial⟩
    · exact ⟨scalar_below g3.wf hx2, trivial⟩
    · exact ⟨scalar_below g3.wf hx3, trivial⟩)
  rw [hE, show cons.length - (eqCons cons).length = (ineqCons cons).length by omega] at h
  exact ⟨_, p.id, duals_ready g4 hpid cons ns, h⟩

/-- solutions of the nonlinear program solve the dual system -/
theorem ipoptNlp_sound (hC : C.Lawful) (h : ipoptNlp C sm ns cons.length dimG dimF params bounds init goal = .ok nlp)
    (hkeys : Dict.keys sm.spExp = expectedKeys cons ns) (hE : sm.nE = (eqCons cons).length)
    (hsum : ∃ ents obj, sm.spExp = ents ++ [(SpKey.obj, obj)] ∧ SumExt FG.zero ents sm.sum)
    (hocc : ∀ en ∈ sm.spExp, ∀ n, en.2.Occurs n → n ∈ params) (hpl : ∀ n ∈ params, Plain n) (hnd : ∀ n ∈ params, ¬ IsDual n)
    {σ : ℕ → ℕ → ℕ → ℝ} (hσ : nlp.state.Sat σ) :
    ∃ pid, DualFeasible sm dimG dimF (nlp.state.value σ) (fun key => nlp.state.symVal σ key.name)
      (fun i j => ∑ k ∈ Finset.range dimG, lowerOf σ pid i k * lowerOf σ pid j k) ∧ nlp.obj.eval σ = - goal.eval (longEnv (nlp.state.value σ)) := by
  obtain ⟨st, pid, rd, h⟩ := ipoptNlp_inv h hE hpl
  have hn : (Dict.keys sm.spExp).Nodup := by rw [hkeys]; exact nodup_expectedKeys _ _
  obtain ⟨ents, obj, hs, hext⟩ := hsum
  obtain ⟨hfil, hget⟩ := DualFeasible.split hs hn
  rw [ipoptFinish, hget] at h
  obtain ⟨obj', hobj', h⟩ := Except.bind_ok_iff.1 h
  injection hobj' with hobj'
  subst hobj'
  obtain ⟨⟨xs1, st1⟩, h1, h⟩ := Except.bind_ok_iff.1 h
  obtain ⟨⟨xs2, st2⟩, h2, h⟩ := Except.bind_ok_iff.1 h
  simp only at h h2
  split at h
  swap
  · simp at h
  obtain ⟨⟨o, st5⟩, h5, h⟩ := Except.bind_ok_iff.1 h
  injection h with h
  subst h
  simp only at hσ ⊢
  have i0 := CaInv.of_plain rd.good.wf rd.good.plain
  obtain ⟨i1, e1, b1, v1⟩ := exprsToCasadi_spec hC _ i0 h1
  obtain ⟨i2, e2, b2, v2⟩ := exprsToCasadi_spec hC _ i1 h2
  have i3 := i2.subjectAll (cs := xs1.map fun x => .eq x (.num 0)) (by
    intro c hc
    obtain ⟨x, hx, rfl⟩ := List.mem_map.1 hc
    exact ⟨(b1 x hx).mono e2.sizes.length_le, trivial⟩)
  have i4 := i3.subjectAll (cs := xs2.zipIdx.map fun xi =>
      .eq (.add xi.1 (.mul (.num (-1)) (pptEntry pid dimG (xi.2 / dimG) (xi.2 % dimG)))) (.num 0)) (by
    intro c hc
    obtain ⟨⟨x, i⟩, hx, rfl⟩ := List.mem_map.1 hc
    have hx' := List.fst_mem_of_mem_zipIdx hx
    exact ⟨⟨b2 x hx', trivial, pptEntry_below (lt_of_lt_of_le rd.pid (e1.sizes.length_le.trans e2.sizes.length_le)) _ _ _⟩, trivial⟩)
  obtain ⟨i5, e5, -, v5⟩ := exprToCasadi_spec hC i4 h5
  have s4 := e5.sat hσ
  have s2 : st2.Sat σ := fun c hc => s4 c (List.mem_append_left _ (List.mem_append_left _ hc))
  have s1 := e2.sat s2
  have s0 := e1.sat s1
  -- the values of symbols in the last state
  have hsym : ∀ n, Plain n → st5.symVal σ n = st.symVal σ n := fun n hp => by
    rw [e5.symVal_plain hp]
    exact (e1.trans e2).symVal_plain hp σ
  have hpar : ∀ n ∈ params, st5.symVal σ n = st5.value σ n := fun n hp => by rw [CaState.symVal, if_neg (hnd n hp)]
  have hlong : ∀ n, Plain n → longEnv (st.symVal σ) n = st5.symVal σ n := fun n hp => by rw [longEnv_plain hp, hsym n hp]
  have hmF : ∀ en ∈ sm.spExp, ∀ k, (en.2.F k).eval (longEnv (st.symVal σ)) = (en.2.F k).eval (st5.value σ) := by
    intro en hen k
    refine Sym.eval_congr _ fun n hnn => ?_
    have hm := hocc en hen n (Or.inl ⟨k, hnn⟩)
    rw [hlong n (hpl n hm), hpar n hm]
  have hmG : ∀ en ∈ sm.spExp, ∀ i j, (en.2.G i j).eval (longEnv (st.symVal σ)) = (en.2.G i j).eval (st5.value σ) := by
    intro en hen i j
    refine Sym.eval_congr _ fun n hnn => ?_
    have hm := hocc en hen n (Or.inr ⟨i, j, hnn⟩)
    rw [hlong n (hpl n hm), hpar n hm]
  have hmem : ∀ en ∈ ents, en ∈ sm.spExp := fun en hen => by rw [hs]; exact List.mem_append_left _ hen
  have hobjm : (SpKey.obj, obj) ∈ sm.spExp := by rw [hs]; simp
  have hname : ∀ en ∈ ents, longEnv (st.symVal σ) en.1.name = st5.symVal σ en.1.name := by
    intro en hen
    have hk : en.1 ∈ Dict.keys sm.spExp := List.mem_map_of_mem (hmem en hen)
    have hne : en.1 ≠ .obj := by
      rw [← hfil, List.mem_filter] at hen
      simpa using hen.2
    cases hen' : en.1 with
    | obj => exact absurd hen' hne
    | tup a k i j => exact hlong _ SpKey.name_plain
  refine ⟨pid, ⟨?_, ?_, ?_⟩, ?_⟩
  · intro k i j hk
    rw [hkeys] at hk
    show 0 ≤ st5.symVal σ (lambName k i j)
    have := rd.nonneg s0 hk
    rwa [← hsym (lambName k i j) (SpKey.name_plain (a := 0))] at this
  · intro k hk
    have hx : ((simplifyMatrix C (sm.sum.sub obj)).F k).eval (longEnv (st.symVal σ)) = 0 := by
      have := congrArg (fun l => l[k]?) (v1 σ s1)
      simp only [List.getElem?_map, FG.flatF, List.getElem?_range, hk, Option.map_some] at this
      obtain ⟨x, hx, hx'⟩ := Option.map_eq_some_iff.1 this
      rw [← hx']
      have hc := s4 (.eq x (.num 0)) (List.mem_append_left _ (List.mem_append_right _ (List.mem_map_of_mem (List.mem_of_getElem? hx))))
      simpa [Constr.Holds, CExp.eval] using hc
    rw [simplifyMatrix] at hx
    simp only at hx
    rw [linearize_eval hC] at hx
    simp only [FG.sub, Sym.eval_sub] at hx
    rw [(hext _).1, hmF _ hobjm] at hx
    rw [SymMats.dualF, hfil, SymMats.objF, hget]
    simp only
    rw [← hx]
    simp only [FG.zero, Sym.eval_num, Rat.cast_zero, zero_add]
    congr 2
    refine List.map_congr_left fun en hen => ?_
    rw [hname en hen, hmF en (hmem en hen)]
  · intro i hi j hj
    have hlt : i * dimG + j < dimG * dimG := by
      calc i * dimG + j < i * dimG + dimG := by omega
        _ = (i + 1) * dimG := by ring
        _ ≤ dimG * dimG := Nat.mul_le_mul_right _ (by omega)
    have hdiv : (i * dimG + j) / dimG = i := by
      rw [Nat.add_comm, Nat.add_mul_div_right _ _ (by omega), Nat.div_eq_of_lt hj, Nat.zero_add]
    have hmod : (i * dimG + j) % dimG = j := by rw [Nat.mul_add_mod', Nat.mod_eq_of_lt hj]
    have hx : ((simplifyMatrix C (sm.sum.sub obj)).G i j).eval (longEnv (st.symVal σ)) =
        ∑ k ∈ Finset.range dimG, lowerOf σ pid i k * lowerOf σ pid j k := by
      have := congrArg (fun l => l[i * dimG + j]?) (v2 σ s2)
      simp only [List.getElem?_map, FG.flatG, List.getElem?_range, hlt, Option.map_some, hdiv, hmod] at this
      obtain ⟨x, hx, hx'⟩ := Option.map_eq_some_iff.1 this
      have hc := s4 (.eq (.add x (.mul (.num (-1)) (pptEntry pid dimG i j))) (.num 0)) (by
        refine List.mem_append_right _ (List.mem_map.2 ⟨(x, i * dimG + j), ?_, ?_⟩)
        · exact List.mem_zipIdx_iff_getElem?.2 hx
        · simp only [hdiv, hmod])
      simp only [Constr.Holds, CExp.eval, eval_pptEntry] at hc
      push_cast at hc
      rw [Sym.eval_congr _ fun n _ => (e1.longSym σ n).symm, ← hx']
      linarith
    rw [simplifyMatrix] at hx
    simp only at hx
    rw [linearize_eval hC] at hx
    simp only [FG.sub, Sym.eval_sub] at hx
    rw [(hext _).2, hmG _ hobjm] at hx
    rw [SymMats.dualG, hfil, SymMats.objG, hget]
    simp only
    rw [← hx]
    simp only [FG.zero, Sym.eval_num, Rat.cast_zero, zero_add]
    congr 2
    refine List.map_congr_left fun en hen => ?_
    rw [hname en hen, hmG en (hmem en hen)]
  · simp only [CExp.eval]
    rw [v5 σ hσ, Sym.eval_congr (env := longEnv (st5.value σ)) _ fun n _ => longEnv_congr (fun _ hn => e5.value_plain hn σ) n]
    push_cast; ring

end Verif
