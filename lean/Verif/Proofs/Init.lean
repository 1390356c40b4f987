import Verif.Model.InitVals
import Verif.Proofs.NlpIff

/-!
# Starting points
-/

namespace Verif

variable {C : CAS}

/-- different names have different variables, and all of them were made -/
structure Fresh (st : CaState) : Prop where
  ids : ∀ n v, st.vars.get? n = some v → v.id < st.sizes.length
  inj : IdInj st

theorem Fresh.newVar {st : CaState} (g : Fresh st) (n : Name) (a b : ℕ) : Fresh (st.newVar n a b) := by
  have hs : (st.newVar n a b).sizes.length = st.sizes.length + 1 := by simp [CaState.newVar]
  constructor
  · intro m v hm
    rw [newVar_get] at hm
    rw [hs]
    split at hm
    · injection hm with hm; subst hm; simp
    · exact Nat.lt_succ_of_lt (g.ids m v hm)
  · intro k m v w hk hm hid
    rw [newVar_get] at hk hm
    split at hk <;> split at hm
    · simp [*]
    · injection hk with hk
      subst hk
      have := g.ids _ _ hm
      simp only at hid this
      omega
    · injection hm with hm
      subst hm
      have := g.ids _ _ hk
      simp only at hid this
      omega
    · exact g.inj k m v w hk hm hid

theorem Fresh.subjectAll {st : CaState} (g : Fresh st) (cs : List Constr) : Fresh (st.subjectAll cs) := ⟨g.ids, g.inj⟩
theorem Fresh.subjectTo {st : CaState} (g : Fresh st) (c : Constr) : Fresh (st.subjectTo c) := ⟨g.ids, g.inj⟩

/-- only entries of named variables occur -/
def CExp.In (st : CaState) : CExp → Prop
  | .num _ => True
  | .var v a b => ∃ n w, st.vars.get? n = some w ∧ w.id = v ∧ a < w.rows ∧ b < w.cols
  | .add a b => a.In st ∧ b.In st
  | .mul a b => a.In st ∧ b.In st

/-- only entries of named variables occur -/
def Constr.In (st : CaState) : Constr → Prop
  | .eq a b => a.In st ∧ b.In st
  | .ge a b => a.In st ∧ b.In st

/-- `σ` and `σ'` agree on the named variables -/
def AgreeUpTo (st : CaState) (σ σ' : ℕ → ℕ → ℕ → ℝ) : Prop :=
  ∀ n v, st.vars.get? n = some v → ∀ i < v.rows, ∀ j < v.cols, σ' v.id i j = σ v.id i j

theorem CExp.In.eval {st : CaState} {σ σ' : ℕ → ℕ → ℕ → ℝ} (ha : AgreeUpTo st σ σ') : ∀ {e : CExp}, e.In st → e.eval σ' = e.eval σ
  | .num _, _ => rfl
  | .var v a b, h => by
    obtain ⟨n, w, h1, rfl, h2, h3⟩ := h
    exact ha n w h1 a h2 b h3
  | .add a b, h => by rw [CExp.eval, CExp.eval, CExp.In.eval ha h.1, CExp.In.eval ha h.2]
  | .mul a b, h => by rw [CExp.eval, CExp.eval, CExp.In.eval ha h.1, CExp.In.eval ha h.2]

theorem Constr.In.holds {st : CaState} {σ σ' : ℕ → ℕ → ℕ → ℝ} (ha : AgreeUpTo st σ σ') {c : Constr} (h : c.In st) (hc : c.Holds σ) : c.Holds σ' := by
  cases c with
  | eq a b => simpa only [Constr.Holds, CExp.In.eval ha h.1, CExp.In.eval ha h.2] using hc
  | ge a b => simpa only [Constr.Holds, CExp.In.eval ha h.1, CExp.In.eval ha h.2] using hc

/-- what the conversion of expressions does to the state -/
structure Conv (st st' : CaState) : Prop where
  fresh : Fresh st → Fresh st'
  get : ∀ n v, st.vars.get? n = some v → st'.vars.get? n = some v
  cons : ∃ cs, st'.cons = st.cons ++ cs ∧ ∀ c ∈ cs, c.In st'

theorem CExp.In.mono {st st' : CaState} (h : ∀ n v, st.vars.get? n = some v → st'.vars.get? n = some v) : ∀ {e : CExp}, e.In st → e.In st'
  | .num _, _ => trivial
  | .var v a b, hb => by obtain ⟨n, w, h1, h2⟩ := hb; exact ⟨n, w, h _ _ h1, h2⟩
  | .add _ _, hb => ⟨hb.1.mono h, hb.2.mono h⟩
  | .mul _ _, hb => ⟨hb.1.mono h, hb.2.mono h⟩

theorem Constr.In.mono {st st' : CaState} (h : ∀ n v, st.vars.get? n = some v → st'.vars.get? n = some v) {c : Constr} (hc : c.In st) : c.In st' := by
  cases c with
  | eq a b => exact ⟨hc.1.mono h, hc.2.mono h⟩
  | ge a b => exact ⟨hc.1.mono h, hc.2.mono h⟩

theorem Conv.refl (st : CaState) : Conv st st := ⟨id, fun _ _ h => h, [], by simp, by simp⟩

theorem Conv.trans {a b c : CaState} (h1 : Conv a b) (h2 : Conv b c) : Conv a c := by
  obtain ⟨c1, e1, i1⟩ := h1.cons
  obtain ⟨c2, e2, i2⟩ := h2.cons
  refine ⟨fun h => h2.fresh (h1.fresh h), fun n v h => h2.get _ _ (h1.get _ _ h), c1 ++ c2, by rw [e2, e1, List.append_assoc], ?_⟩
  intro c hc
  rcases List.mem_append.1 hc with h | h
  · exact (i1 c h).mono h2.get
  · exact i2 c h

theorem Conv.subjectAll {st : CaState} {cs : List Constr} (h : ∀ c ∈ cs, c.In st) : Conv st (st.subjectAll cs) :=
  ⟨fun g => g.subjectAll cs, fun _ _ h => h, cs, rfl, fun c hc => Constr.In.mono (st := st) (st' := st.subjectAll cs) (fun _ _ h => h) (h c hc)⟩

theorem scalar_in {st : CaState} {n : Name} {x : CExp} (h : st.scalar n = .ok x) : x.In st := by
  rw [CaState.scalar] at h
  split at h
  · simp at h
  · rename_i v hv
    split at h
    · rename_i hd
      injection h with h
      subst h
      exact ⟨n, v, hv, rfl, by rw [hd.1]; exact Nat.one_pos, by rw [hd.2]; exact Nat.one_pos⟩
    · simp at h

theorem entry_in {st : CaState} {n : Name} {a b : ℕ} {x : CExp} (h : st.entry n a b = .ok x) : x.In st := by
  rw [CaState.entry] at h
  split at h
  · simp at h
  · rename_i v hv
    split at h
    · rename_i hd
      injection h with h
      subst h
      exact ⟨n, v, hv, rfl, hd⟩
    · simp at h

theorem linLoop_conv : ∀ (rest pre : List Name) {st st' : CaState}, linLoop pre rest st = .ok st' → Conv st st' := by
  intro rest
  induction rest with
  | nil => intro pre st st' h; rw [linLoop] at h; injection h with h; subst h; exact Conv.refl _
  | cons el rest ih =>
    intro pre st st' h
    rw [linLoop] at h
    split at h
    · exact ih _ h
    · rename_i hn
      obtain ⟨x, hx, h⟩ := Except.bind_ok_iff.1 h
      obtain ⟨a, ha, h⟩ := Except.bind_ok_iff.1 h
      obtain ⟨b, hb, h⟩ := Except.bind_ok_iff.1 h
      refine Conv.trans ?_ (ih _ h)
      refine ⟨fun g => (g.newVar _ _ _).subjectTo _, fun m v hv => ?_, [_], rfl, ?_⟩
      · show (st.newVar _ 1 1).vars.get? m = some v
        rw [newVar_get, if_neg, hv]
        rintro rfl
        exact hn (by rw [Dict.has, hv]; rfl)
      · intro c hc
        rw [List.mem_singleton] at hc
        subst hc
        exact ⟨scalar_in hx, scalar_in ha, scalar_in hb⟩

theorem linMonomial_conv {l : List Name} {st st' : CaState} {x : CExp} (h : linMonomial l st = .ok (x, st')) : Conv st st' ∧ x.In st' := by
  rw [linMonomial] at h
  split at h
  · injection h with h
    simp only [Prod.mk.injEq] at h
    obtain ⟨rfl, rfl⟩ := h
    exact ⟨Conv.refl _, trivial⟩
  · obtain ⟨st1, h1, h⟩ := Except.bind_ok_iff.1 h
    obtain ⟨y, hy, h⟩ := Except.bind_ok_iff.1 h
    injection h with h
    simp only [Prod.mk.injEq] at h
    obtain ⟨rfl, rfl⟩ := h
    exact ⟨linLoop_conv _ _ h1, scalar_in hy⟩

theorem dualMonomial_conv {parts : List Name} {idx : ℕ} {st st' : CaState} {x : CExp} (h : dualMonomial parts idx st = .ok (x, st')) :
    Conv st st' ∧ x.In st' := by
  rw [dualMonomial] at h
  split at h
  · cases h
  · obtain ⟨d, -, h⟩ := Except.bind_ok_iff.1 h
    obtain ⟨y, hy, h⟩ := Except.bind_ok_iff.1 h
    obtain ⟨⟨z, st1⟩, hz, h⟩ := Except.bind_ok_iff.1 h
    injection h with h
    simp only [Prod.mk.injEq] at h
    obtain ⟨rfl, rfl⟩ := h
    obtain ⟨c1, i1⟩ := linMonomial_conv hz
    exact ⟨c1, (entry_in hy).mono c1.get, i1⟩

theorem lambMonomial_conv {parts : List Name} {st st' : CaState} {x : CExp} (h : lambMonomial parts st = .ok (x, st')) : Conv st st' ∧ x.In st' := by
  rw [lambMonomial] at h
  split at h
  · split at h
    · split at h
      · exact dualMonomial_conv h
      · split at h
        · exact dualMonomial_conv h
        · exact linMonomial_conv h
    · cases h
  · injection h with h
    simp only [Prod.mk.injEq] at h
    obtain ⟨rfl, rfl⟩ := h
    exact ⟨Conv.refl _, trivial⟩

theorem lambTerms_conv : ∀ (ts : List PolyTerm) {acc x : CExp} {st st' : CaState}, acc.In st → lambTerms ts acc st = .ok (x, st') →
    Conv st st' ∧ x.In st' := by
  intro ts
  induction ts with
  | nil =>
    intro acc x st st' ha h
    rw [lambTerms] at h
    injection h with h
    simp only [Prod.mk.injEq] at h
    obtain ⟨rfl, rfl⟩ := h
    exact ⟨Conv.refl _, ha⟩
  | cons t ts ih =>
    intro acc x st st' ha h
    rw [lambTerms] at h
    obtain ⟨⟨y, st1⟩, h1, h⟩ := Except.bind_ok_iff.1 h
    obtain ⟨c1, i1⟩ := lambMonomial_conv h1
    obtain ⟨c2, i2⟩ := ih (acc := .add acc (.mul (.num t.2) y)) ⟨ha.mono c1.get, trivial, i1⟩ h
    exact ⟨c1.trans c2, i2⟩

theorem plainTerms_conv : ∀ (ts : List PolyTerm) {acc x : CExp} {st st' : CaState}, acc.In st → plainTerms ts acc st = .ok (x, st') →
    Conv st st' ∧ x.In st' := by
  intro ts
  induction ts with
  | nil =>
    intro acc x st st' ha h
    rw [plainTerms] at h
    injection h with h
    simp only [Prod.mk.injEq] at h
    obtain ⟨rfl, rfl⟩ := h
    exact ⟨Conv.refl _, ha⟩
  | cons t ts ih =>
    intro acc x st st' ha h
    rw [plainTerms] at h
    obtain ⟨⟨y, st1⟩, h1, h⟩ := Except.bind_ok_iff.1 h
    obtain ⟨c1, i1⟩ := linMonomial_conv h1
    obtain ⟨c2, i2⟩ := ih (acc := .add acc (.mul (.num t.2) y)) ⟨ha.mono c1.get, trivial, i1⟩ h
    exact ⟨c1.trans c2, i2⟩

theorem exprToCasadiLamb_conv {e : Sym} {x : CExp} {st st' : CaState} (h : exprToCasadiLamb C e st = .ok (x, st')) : Conv st st' ∧ x.In st' := by
  rw [exprToCasadiLamb] at h
  split at h
  · injection h with h
    simp only [Prod.mk.injEq] at h
    obtain ⟨rfl, rfl⟩ := h
    exact ⟨Conv.refl _, trivial⟩
  · exact lambTerms_conv _ (acc := .num 0) trivial h

theorem exprToCasadi_conv {e : Sym} {x : CExp} {st st' : CaState} (h : exprToCasadi C e st = .ok (x, st')) : Conv st st' ∧ x.In st' := by
  rw [exprToCasadi] at h
  split at h
  · injection h with h
    simp only [Prod.mk.injEq] at h
    obtain ⟨rfl, rfl⟩ := h
    exact ⟨Conv.refl _, trivial⟩
  · exact plainTerms_conv _ (acc := .num 0) trivial h

theorem exprsToCasadi_conv : ∀ (es : List Sym) {xs : List CExp} {st st' : CaState}, exprsToCasadi C es st = .ok (xs, st') →
    Conv st st' ∧ ∀ x ∈ xs, x.In st' := by
  intro es
  induction es with
  | nil =>
    intro xs st st' h
    rw [exprsToCasadi] at h
    injection h with h
    simp only [Prod.mk.injEq] at h
    obtain ⟨rfl, rfl⟩ := h
    exact ⟨Conv.refl _, by simp⟩
  | cons e es ih =>
    intro xs st st' h
    rw [exprsToCasadi] at h
    obtain ⟨⟨y, st1⟩, h1, h⟩ := Except.bind_ok_iff.1 h
    obtain ⟨⟨ys, st2⟩, h2, h⟩ := Except.bind_ok_iff.1 h
    injection h with h
    simp only [Prod.mk.injEq] at h
    obtain ⟨rfl, rfl⟩ := h
    obtain ⟨c1, i1⟩ := exprToCasadiLamb_conv h1
    obtain ⟨c2, i2⟩ := ih h2
    refine ⟨c1.trans c2, fun x hx => ?_⟩
    rcases List.mem_cons.1 hx with rfl | hx
    · exact i1.mono c2.get
    · exact i2 x hx

theorem pptEntry_in {st : CaState} {pid dimG : ℕ} (hP : st.vars.get? "P" = some ⟨pid, dimG, dimG⟩) {i j : ℕ} (hi : i < dimG) (hj : j < dimG) :
    (pptEntry pid dimG i j).In st := by
  have htri : ∀ a < dimG, ∀ k < dimG, (trilEntry pid a k).In st := by
    intro a ha k hk
    rw [trilEntry]
    split
    · exact ⟨_, _, hP, rfl, ha, hk⟩
    · trivial
  rw [pptEntry]
  have : ∀ (l : List ℕ) (acc : CExp), (∀ k ∈ l, k < dimG) → acc.In st →
      (l.foldl (fun acc k => CExp.add acc (.mul (trilEntry pid i k) (trilEntry pid j k))) acc).In st := by
    intro l
    induction l with
    | nil => intro acc _ h; exact h
    | cons k l ih =>
      intro acc hl h
      exact ih _ (fun k hk => hl k (by simp [hk])) ⟨h, htri i hi k (hl k (by simp)), htri j hj k (hl k (by simp))⟩
  exact this _ _ (fun k hk => List.mem_range.1 hk) trivial

variable {sm : SymMats} {dimG dimF pid : ℕ} {init : List Name} {goal : Sym} {st : CaState} {nlp : Nlp}

/-- the end of the construction: what `init` does, and what the added constraints are about -/
theorem finish_conv (h : ipoptFinish C sm dimG dimF pid init goal st = .ok nlp) (hP : st.vars.get? "P" = some ⟨pid, dimG, dimG⟩) :
    Conv st nlp.state ∧ nlp.obj.In nlp.state := by
  rw [ipoptFinish] at h
  cases ho : sm.spExp.get? SpKey.obj with
  | none => rw [ho] at h; cases h
  | some obj =>
  rw [ho] at h
  obtain ⟨_, h0, h⟩ := Except.bind_ok_iff.1 h
  cases h0
  obtain ⟨⟨z1, st1⟩, h1, h⟩ := Except.bind_ok_iff.1 h
  obtain ⟨⟨z2, st2⟩, h2, h⟩ := Except.bind_ok_iff.1 h
  obtain ⟨c1, i1⟩ := exprsToCasadi_conv _ h1
  obtain ⟨c2, i2⟩ := exprsToCasadi_conv _ h2
  simp only at h
  split at h
  · obtain ⟨⟨o, st3⟩, h3, h⟩ := Except.bind_ok_iff.1 h
    injection h with h
    subst h
    obtain ⟨c3, i3⟩ := exprToCasadi_conv h3
    have hz2 : z2.length = dimG * dimG := by
      have : ∀ (es : List Sym) {xs : List CExp} {st st' : CaState}, exprsToCasadi C es st = .ok (xs, st') → xs.length = es.length := by
        intro es
        induction es with
        | nil => intro xs st st' h; rw [exprsToCasadi] at h; injection h with h; simp only [Prod.mk.injEq] at h; simp [← h.1]
        | cons e es ih =>
          intro xs st st' h
          rw [exprsToCasadi] at h
          obtain ⟨⟨y, st1⟩, -, h⟩ := Except.bind_ok_iff.1 h
          obtain ⟨⟨ys, st2⟩, h2, h⟩ := Except.bind_ok_iff.1 h
          injection h with h
          simp only [Prod.mk.injEq] at h
          rw [← h.1, List.length_cons, List.length_cons, ih h2]
      rw [this _ h2]
      simp [FG.flatG]
    refine ⟨(((c1.trans c2).trans (Conv.subjectAll ?_)).trans (Conv.subjectAll ?_)).trans c3, trivial, i3⟩
    · intro c hc
      obtain ⟨x, hx, rfl⟩ := List.mem_map.1 hc
      exact ⟨(i1 x hx).mono c2.get, trivial⟩
    · intro c hc
      obtain ⟨⟨x, i⟩, hx, rfl⟩ := List.mem_map.1 hc
      have hx' : x ∈ z2 := by
        have := List.mem_map_of_mem (f := Prod.fst) hx
        simpa using this
      have hi : i < dimG * dimG := by
        have := List.mem_zipIdx hx
        omega
      have hd : 0 < dimG := by
        rcases Nat.eq_zero_or_pos dimG with h | h
        · simp [h] at hi
        · exact h
      refine Constr.In.mono (st := st2) (st' := st2.subjectAll _) (fun _ _ h => h) ?_
      exact ⟨⟨i2 x hx', trivial, pptEntry_in (c2.get _ _ (c1.get _ _ hP)) (Nat.div_lt_of_lt_mul hi) (Nat.mod_lt _ hd)⟩, trivial⟩
  · cases h

/-! ### Any parameter names -/

theorem invLoop_fresh : ∀ (l : List Name) {st st' : CaState}, Fresh st → invLoop l st = .ok st' → Fresh st' := by
  intro l
  induction l with
  | nil => intro st st' g h; rw [invLoop] at h; injection h with h; subst h; exact g
  | cons n l ih =>
    intro st st' g h
    rw [invLoop] at h
    obtain ⟨st1, h1, h⟩ := Except.bind_ok_iff.1 h
    refine ih ?_ h
    rw [invStep] at h1
    obtain ⟨a, -, h1⟩ := Except.bind_ok_iff.1 h1
    obtain ⟨b, -, h1⟩ := Except.bind_ok_iff.1 h1
    injection h1 with h1
    subst h1
    exact ((((g.newVar _ _ _).newVar _ _ _).subjectTo _).subjectTo _)

theorem addParams_fresh : ∀ (l : List Name) {st : CaState}, Fresh st → Fresh (addParams l st) := by
  intro l
  induction l with
  | nil => intro st g; exact g
  | cons n l ih =>
    intro st g
    rw [addParams, List.foldl_cons]
    refine ih ?_
    split
    · exact g
    · exact g.newVar _ _ _

theorem fnDuals_fresh : ∀ (ns : List ℕ) (k : ℕ) {st : CaState}, Fresh st → Fresh (fnDuals ns k st) := by
  intro ns
  induction ns with
  | nil => intro k st g; exact g
  | cons n ns ih =>
    intro k st g
    rw [fnDuals]
    exact ih _ ((g.newVar _ _ _).subjectAll _)

theorem extraDuals_fresh (a b : ℕ) {st : CaState} (g : Fresh st) : Fresh (extraDuals a b st) := by
  rw [extraDuals]
  have g1 : Fresh (if a ≥ 1 then (st.newVar "lamb0" a 1).subjectAll (nonneg ⟨st.sizes.length, a, 1⟩) else st) := by
    split
    · exact (g.newVar _ _ _).subjectAll _
    · exact g
  split
  · exact g1.newVar _ _ _
  · exact g1

theorem ipoptInit_fresh (dimG : ℕ) : Fresh (ipoptInit dimG) := by
  have : ∀ (l : List Name) {st : CaState}, Fresh st → Fresh (l.foldl (fun (st : CaState) n => st.newVar n 1 1) st) := by
    intro l
    induction l with
    | nil => intro st g; exact g
    | cons n l ih => intro st g; exact ih (g.newVar _ _ _)
  refine (this _ ?_).newVar _ _ _
  constructor
  · intro n v h; cases h
  · intro n m v w h; cases h

theorem fnDuals_P : ∀ (ns : List ℕ) (k : ℕ) (st : CaState), (fnDuals ns k st).vars.get? "P" = st.vars.get? "P" := by
  intro ns
  induction ns with
  | nil => intro k st; rfl
  | cons n ns ih =>
    intro k st
    rw [fnDuals, ih]
    refine (newVar_get ..).trans (if_neg fun h => ?_)
    have h1 := lambVar_isDual k
    rw [← h] at h1
    exact absurd h1 (by decide)

theorem extraDuals_P (a b : ℕ) (st : CaState) : (extraDuals a b st).vars.get? "P" = st.vars.get? "P" := by
  have g1 : (if a ≥ 1 then (st.newVar "lamb0" a 1).subjectAll (nonneg ⟨st.sizes.length, a, 1⟩) else st).vars.get? "P" = st.vars.get? "P" := by
    split
    · exact (newVar_get ..).trans (if_neg (by decide))
    · rfl
  rw [extraDuals]
  split
  · exact ((newVar_get ..).trans (if_neg (by decide))).trans g1
  · exact g1

/-- the construction reaches `ipoptFinish`, where alone `init` is used -/
theorem ipoptNlp_finish (C : CAS) (sm : SymMats) (ns : List ℕ) (nCons dimG dimF : ℕ) (params : List Name) (bounds : List Bound) (goal : Sym) :
    (∃ e, ∀ init, ipoptNlp C sm ns nCons dimG dimF params bounds init goal = .error e) ∨
    ∃ st pid, Fresh st ∧ st.vars.get? "P" = some ⟨pid, dimG, dimG⟩ ∧
      ∀ init, ipoptNlp C sm ns nCons dimG dimF params bounds init goal = ipoptFinish C sm dimG dimF pid init goal st := by
  obtain ⟨st1, h1⟩ := invLoop_ok (invParams params) (ipoptInit dimG)
  have g1 := addParams_fresh params (invLoop_fresh _ (ipoptInit_fresh dimG) h1)
  simp only [ipoptNlp, h1, bind, Except.bind]
  cases hp : (addParams params st1).vars.get? "P" with
  | none => exact .inl ⟨_, fun _ => rfl⟩
  | some p =>
  dsimp only
  by_cases hd : p.rows = dimG ∧ p.cols = dimG
  swap
  · rw [if_neg hd]; exact .inl ⟨_, fun _ => rfl⟩
  rw [if_pos hd]
  dsimp only
  split
  · exact .inl ⟨_, fun _ => rfl⟩
  rename_i bs hbs
  split
  · exact .inl ⟨_, fun _ => rfl⟩
  split
  · exact .inl ⟨_, fun _ => rfl⟩
  split
  · exact .inl ⟨_, fun _ => rfl⟩
  refine .inr ⟨_, p.id, fnDuals_fresh _ _ (extraDuals_fresh _ _ (((g1.subjectAll _).subjectAll _).subjectAll _)), ?_, fun _ => rfl⟩
  rw [fnDuals_P, extraDuals_P]
  refine hp.trans ?_
  obtain ⟨i, a, b⟩ := p
  simp only at hd
  rw [hd.1, hd.2]

/-- `init` decides only whether the construction succeeds -/
theorem ipoptFinish_init (h : ipoptFinish C sm dimG dimF pid init goal st = .ok nlp) :
    ipoptFinish C sm dimG dimF pid [] goal st = .ok nlp ∧ ∀ n ∈ init, nlp.state.vars.has n = true := by
  rw [ipoptFinish] at h ⊢
  cases ho : sm.spExp.get? SpKey.obj with
  | none => rw [ho] at h; cases h
  | some obj =>
  rw [ho] at h
  obtain ⟨_, h0, h⟩ := Except.bind_ok_iff.1 h
  cases h0
  obtain ⟨⟨z1, st1⟩, h1, h⟩ := Except.bind_ok_iff.1 h
  obtain ⟨⟨z2, st2⟩, h2, h⟩ := Except.bind_ok_iff.1 h
  simp only at h
  split at h
  · rename_i hall
    obtain ⟨⟨o, st3⟩, h3, h⟩ := Except.bind_ok_iff.1 h
    obtain ⟨c3, -⟩ := exprToCasadi_conv h3
    constructor
    · simp only [bind, Except.bind, h1, h2, List.all_nil, if_true, h3]
      exact h
    · intro n hn
      have := List.all_eq_true.1 hall n hn
      injection h with h
      subst h
      obtain ⟨v, hv⟩ := Option.isSome_iff_exists.1 this
      exact Option.isSome_iff_exists.2 ⟨v, c3.get _ _ hv⟩
  · cases h

/-- an unknown name in `init` is KeyError -/
theorem ipoptFinish_unknown (h : ipoptFinish C sm dimG dimF pid [] goal st = .ok nlp) {n : Name} (hn : n ∈ init) (hk : nlp.state.vars.has n = false) :
    ipoptFinish C sm dimG dimF pid init goal st = .error .key := by
  rw [ipoptFinish] at h ⊢
  cases ho : sm.spExp.get? SpKey.obj with
  | none => rw [ho] at h; cases h
  | some obj =>
  rw [ho] at h
  obtain ⟨_, h0, h⟩ := Except.bind_ok_iff.1 h
  cases h0
  obtain ⟨⟨z1, st1⟩, h1, h⟩ := Except.bind_ok_iff.1 h
  obtain ⟨⟨z2, st2⟩, h2, h⟩ := Except.bind_ok_iff.1 h
  simp only [List.all_nil, if_true] at h
  obtain ⟨⟨o, st3⟩, h3, h⟩ := Except.bind_ok_iff.1 h
  obtain ⟨c3, -⟩ := exprToCasadi_conv h3
  injection h with h
  subst h
  simp only [bind, Except.bind, h1, h2]
  rw [if_neg]
  intro hall
  have := List.all_eq_true.1 hall n hn
  obtain ⟨v, hv⟩ := Option.isSome_iff_exists.1 this
  have h4 := c3.get _ _ hv
  simp only [Dict.has, h4] at hk
  cases hk

/-! ### The loops over the initial values -/

/-- entry `(i, j)` of an initial value -/
def InitVal.at_ : InitVal → ℕ → ℕ → ℝ
  | .num c, _, _ => c
  | .arr _ _ e, i, j => e i j

theorem setInitial_spec {g g' : Guess} {v a rows cols : ℕ} {val : InitVal} (h : setInitial g v a rows cols val = .ok g') :
    ∀ v' i j, g' v' i j = if v' = v ∧ a ≤ i ∧ i < a + rows ∧ j < cols then val.at_ (i - a) j else g v' i j := by
  cases val with
  | num c => injection h with h; subst h; intro v' i j; rfl
  | arr r c e =>
    rw [setInitial] at h
    split at h
    · injection h with h; subst h; intro v' i j; rfl
    · cases h

theorem initDirect_spec {vars : Dict Name CaVar} (hinj : ∀ n m v w, vars.get? n = some v → vars.get? m = some w → v.id = w.id → n = m) :
    ∀ (l : Dict Name InitVal) {g g' : Guess}, l.NodupKeys → initDirect vars l g = .ok g' →
    ∀ n v, vars.get? n = some v → ∀ i < v.rows, ∀ j < v.cols, g' v.id i j = match l.get? n with
      | some val => val.at_ i j
      | none => g v.id i j := by
  intro l
  induction l with
  | nil => intro g g' _ h n v _ i _ j _; rw [initDirect] at h; injection h with h; subst h; rfl
  | cons nv l ih =>
    intro g g' hnd h n v hv i hi j hj
    rw [initDirect] at h
    split at h
    · cases h
    · rename_i w hw
      obtain ⟨g1, h1, h⟩ := Except.bind_ok_iff.1 h
      have hnd' : nv.1 ∉ Dict.keys l ∧ Dict.NodupKeys l := by
        rw [Dict.NodupKeys, Dict.keys_cons, List.nodup_cons] at hnd
        exact hnd
      have h2 := ih hnd'.2 h n v hv i hi j hj
      rw [h2, Dict.get?_cons]
      by_cases hn : nv.1 = n
      · subst hn
        rw [(Dict.get?_eq_none_iff l nv.1).2 hnd'.1]
        rw [hv] at hw
        injection hw with hw
        subst hw
        simp only [if_true]
        rw [setInitial_spec h1, if_pos ⟨rfl, Nat.zero_le _, by simpa using hi, hj⟩]
        rfl
      · rw [if_neg hn]
        cases hl : Dict.get? l n with
        | some val => rfl
        | none =>
          simp only
          rw [setInitial_spec h1, if_neg]
          rintro ⟨h3, -⟩
          exact hn (hinj _ _ _ _ hw hv h3.symm)

/-- the names `init_ca_ipopt` reads -/
def blockNames : List Name := ["v", "lamb", "nu", "P", "x"]

theorem vecIndices_get (s : QSizes) (n : Name) : (vecIndices s).get? n = if n = "v" then some s.vI else if n = "lamb" then some s.lambI else
    if n = "nu" then some ⟨s.v + s.nI, s.v + s.nI + s.nE⟩ else if n = "P" then some s.pI else none := by
  rw [vecIndices]
  simp only [Dict.get?_cons, Dict.get?_nil, eq_comm (a := n)]

/-- other names have no effect -/
theorem initCa_filter (s : QSizes) : ∀ (l : Dict Name InitVal) (g : Guess), initCa s l g = initCa s (l.filter fun nv => nv.1 ∈ blockNames) g := by
  intro l
  induction l with
  | nil => intro g; rfl
  | cons nv l ih =>
    intro g
    rw [initCa, List.filter_cons]
    by_cases hb : nv.1 ∈ blockNames
    · simp only [hb, decide_true, if_true]
      rw [initCa]
      simp only [ih]
    · simp only [hb, decide_false, Bool.false_eq_true, if_false]
      have h1 : (vecIndices s).get? nv.1 = none := by
        rw [vecIndices_get]
        simp only [blockNames, List.mem_cons, List.not_mem_nil, or_false, not_or] at hb
        simp [hb]
      have h2 : nv.1 ≠ "x" := fun h => hb (by rw [h]; decide)
      rw [h1]
      simp only [if_neg h2]
      exact ih g

/-- blocks of different names are disjoint -/
theorem vecIndices_disjoint {s : QSizes} {n m : Name} {a b : VecIdx} (ha : (vecIndices s).get? n = some a) (hb : (vecIndices s).get? m = some b) {i : ℕ}
    (h1 : a.start ≤ i) (h2 : i < a.stop) (h3 : b.start ≤ i) (h4 : i < b.stop) : n = m := by
  rw [vecIndices_get] at ha hb
  split_ifs at ha <;> split_ifs at hb <;> (try (injection ha with ha; injection hb with hb; subst ha; subst hb)) <;>
    simp_all [QSizes.vI, QSizes.lambI, QSizes.pI] <;> omega

theorem initCa_blocks {s : QSizes} : ∀ (l : Dict Name InitVal) {g g' : Guess}, l.NodupKeys → "x" ∉ l.keys → initCa s l g = .ok g' →
    (∀ n vi, (vecIndices s).get? n = some vi → ∀ k, vi.start + k < vi.stop → g' 0 (vi.start + k) 0 = match l.get? n with
      | some val => val.at_ k 0
      | none => g 0 (vi.start + k) 0) ∧ ∀ i ≥ s.x, g' 0 i 0 = g 0 i 0 := by
  intro l
  induction l with
  | nil => intro g g' _ _ h; rw [initCa] at h; injection h with h; subst h; exact ⟨fun _ _ _ _ _ => rfl, fun _ _ => rfl⟩
  | cons nv l ih =>
    intro g g' hnd hx h
    have hnd' : nv.1 ∉ Dict.keys l ∧ Dict.NodupKeys l := by
      rw [Dict.NodupKeys, Dict.keys_cons, List.nodup_cons] at hnd
      exact hnd
    rw [Dict.keys_cons, List.mem_cons, not_or] at hx
    rw [initCa] at h
    split at h
    · rename_i w hw
      obtain ⟨g1, h1, h⟩ := Except.bind_ok_iff.1 h
      obtain ⟨k1, k2⟩ := ih hnd'.2 hx.2 h
      refine ⟨fun n vi hvi k hk => ?_, fun i hi => ?_⟩
      · rw [k1 n vi hvi k hk, Dict.get?_cons]
        by_cases hn : nv.1 = n
        · subst hn
          rw [(Dict.get?_eq_none_iff l nv.1).2 hnd'.1]
          rw [hvi] at hw
          injection hw with hw
          subst hw
          simp only [if_true]
          rw [setInitial_spec h1, if_pos ⟨rfl, Nat.le_add_right _ _, by omega, Nat.one_pos⟩, Nat.add_sub_cancel_left]
        · rw [if_neg hn]
          cases hl : Dict.get? l n with
          | some val => rfl
          | none =>
            simp only
            rw [setInitial_spec h1, if_neg]
            rintro ⟨-, h3, h4, -⟩
            exact hn (vecIndices_disjoint hw hvi h3 (by omega) (Nat.le_add_right _ _) hk)
      · rw [k2 i hi, setInitial_spec h1, if_neg]
        rintro ⟨-, h3, h4, -⟩
        have : w.stop ≤ s.x := by
          rw [vecIndices_get] at hw
          split_ifs at hw <;> injection hw with hw <;> subst hw <;> simp only [QSizes.vI, QSizes.lambI, QSizes.pI, QSizes.x] <;> omega
        omega
    · rename_i hw
      rw [if_neg (fun h => hx.1 h.symm)] at h
      obtain ⟨k1, k2⟩ := ih hnd'.2 hx.2 h
      refine ⟨fun n vi hvi k hk => ?_, k2⟩
      rw [k1 n vi hvi k hk, Dict.get?_cons, if_neg]
      rintro rfl
      rw [hw] at hvi
      cases hvi

end Verif
