import Verif.Model.Sizes
import Verif.Proofs.NlpIff

/-!
# Proofs for C75: `ca_vars` and the variables of `opti`
-/

namespace Verif

variable {C : CAS}

theorem caTotalSize_eq (d : Dict Name CaVar) : caTotalSize d = (d.map fun kv => kv.2.rows * kv.2.cols).sum := by
  have : ∀ (l : Dict Name CaVar) (a : ℕ), l.foldl (fun size kv => size + kv.2.rows * kv.2.cols) a = a + (l.map fun kv => kv.2.rows * kv.2.cols).sum := by
    intro l
    induction l with
    | nil => simp
    | cons x l ih => intro a; simp [ih, Nat.add_assoc]
  rw [caTotalSize, this]; simp

/-- number of scalar decision variables that `opti.variable` made -/
def CaState.count (st : CaState) : ℕ := (st.sizes.map fun s => s.1 * s.2).sum

/-- predicates kept by a new variable whose name satisfies `ok` and by new constraints -/
structure Closed (ok : CaState → Name → Prop) (I : CaState → Prop) : Prop where
  new : ∀ {st : CaState} {n : Name}, ok st n → ∀ a b, I st → I (st.newVar n a b)
  cons : ∀ {st : CaState} cs, I st → I { st with cons := cs }

section
variable {I : CaState → Prop} (k : Closed (fun st n => st.vars.has n = false) I)
include k

theorem Closed.linLoop : ∀ (rest pre : List Name) {st st' : CaState}, I st → Verif.linLoop pre rest st = .ok st' → I st' := by
  intro rest
  induction rest with
  | nil =>
    intro pre st st' i h
    rw [Verif.linLoop] at h
    injection h with h
    exact h ▸ i
  | cons el rest ih =>
    intro pre st st' i h
    rw [Verif.linLoop] at h
    split at h
    · exact ih _ i h
    · rename_i hh
      obtain ⟨x, -, h⟩ := Except.bind_ok_iff.1 h
      obtain ⟨a, -, h⟩ := Except.bind_ok_iff.1 h
      obtain ⟨b, -, h⟩ := Except.bind_ok_iff.1 h
      exact ih _ (k.cons _ (k.new (by simpa using hh) 1 1 i)) h

theorem Closed.linMonomial {l : List Name} {st : CaState} {r : CExp × CaState} (i : I st) (h : Verif.linMonomial l st = .ok r) : I r.2 := by
  rw [Verif.linMonomial] at h
  split at h
  · injection h with h; subst h; exact i
  · obtain ⟨st', h1, h⟩ := Except.bind_ok_iff.1 h
    obtain ⟨x, -, h⟩ := Except.bind_ok_iff.1 h
    injection h with h; subst h
    exact k.linLoop _ _ i h1

theorem Closed.dualMonomial {l : List Name} {idx : ℕ} {st : CaState} {r : CExp × CaState} (i : I st) (h : Verif.dualMonomial l idx st = .ok r) : I r.2 := by
  rw [Verif.dualMonomial] at h
  split at h
  · cases h
  · obtain ⟨d, -, h⟩ := Except.bind_ok_iff.1 h
    obtain ⟨x, -, h⟩ := Except.bind_ok_iff.1 h
    obtain ⟨r', h1, h⟩ := Except.bind_ok_iff.1 h
    injection h with h; subst h
    exact (k.linMonomial i h1 : I r'.2)

theorem Closed.lambMonomial {l : List Name} {st : CaState} {r : CExp × CaState} (i : I st) (h : Verif.lambMonomial l st = .ok r) : I r.2 := by
  rw [Verif.lambMonomial] at h
  split at h
  · split at h
    · split at h
      · exact k.dualMonomial i h
      · split at h
        · exact k.dualMonomial i h
        · exact k.linMonomial i h
    · cases h
  · injection h with h; subst h; exact i

theorem Closed.lambTerms : ∀ (ts : List PolyTerm) {acc : CExp} {st : CaState} {r : CExp × CaState}, I st → Verif.lambTerms ts acc st = .ok r → I r.2 := by
  intro ts
  induction ts with
  | nil => intro acc st r i h; rw [Verif.lambTerms] at h; injection h with h; subst h; exact i
  | cons t ts ih =>
    intro acc st r i h
    rw [Verif.lambTerms] at h
    obtain ⟨x, h1, h⟩ := Except.bind_ok_iff.1 h
    exact ih (k.lambMonomial i h1) h

theorem Closed.plainTerms : ∀ (ts : List PolyTerm) {acc : CExp} {st : CaState} {r : CExp × CaState}, I st → Verif.plainTerms ts acc st = .ok r → I r.2 := by
  intro ts
  induction ts with
  | nil => intro acc st r i h; rw [Verif.plainTerms] at h; injection h with h; subst h; exact i
  | cons t ts ih =>
    intro acc st r i h
    rw [Verif.plainTerms] at h
    obtain ⟨x, h1, h⟩ := Except.bind_ok_iff.1 h
    exact ih (k.linMonomial i h1) h

theorem Closed.exprsToCasadi : ∀ (es : List Sym) {st : CaState} {r : List CExp × CaState}, I st → Verif.exprsToCasadi C es st = .ok r → I r.2 := by
  intro es
  induction es with
  | nil => intro st r i h; rw [Verif.exprsToCasadi] at h; injection h with h; subst h; exact i
  | cons e es ih =>
    intro st r i h
    rw [Verif.exprsToCasadi] at h
    obtain ⟨x, h1, h⟩ := Except.bind_ok_iff.1 h
    obtain ⟨y, h2, h⟩ := Except.bind_ok_iff.1 h
    injection h with h; subst h
    refine (ih ?_ h2 : I y.2)
    rw [exprToCasadiLamb] at h1
    split at h1
    · injection h1 with h1; subst h1; exact i
    · exact k.lambTerms _ i h1

theorem Closed.finish {sm : SymMats} {dimG dimF pid : ℕ} {init : List Name} {goal : Sym} {st : CaState} {nlp : Nlp} (i : I st)
    (h : ipoptFinish C sm dimG dimF pid init goal st = .ok nlp) : I nlp.state := by
  rw [ipoptFinish] at h
  split at h
  swap
  · cases h
  obtain ⟨obj, -, h⟩ := Except.bind_ok_iff.1 h
  obtain ⟨z1, h1, h⟩ := Except.bind_ok_iff.1 h
  obtain ⟨z2, h2, h⟩ := Except.bind_ok_iff.1 h
  simp only at h
  split at h
  swap
  · cases h
  obtain ⟨o, h3, h⟩ := Except.bind_ok_iff.1 h
  injection h with h; subst h
  have i2 := k.exprsToCasadi _ (k.exprsToCasadi _ i h1) h2
  show I o.2
  rw [exprToCasadi] at h3
  split at h3
  · injection h3 with h3; subst h3; exact k.cons _ (k.cons _ i2)
  · exact k.plainTerms _ (k.cons _ (k.cons _ i2)) h3

theorem Closed.addParams {params : List Name} : ∀ {st : CaState}, I st → I (Verif.addParams params st) := by
  unfold Verif.addParams
  induction params with
  | nil => exact fun i => i
  | cons n l ih =>
    intro st i
    rw [List.foldl_cons]
    refine ih ?_
    split
    · exact i
    · rename_i hh
      exact k.new (by simpa using hh) 1 1 i

end

theorem Closed.ipoptInit {ok} {I : CaState → Prop} (k : Closed ok I) (dimG : ℕ) (h0 : I ⟨[], [], []⟩) (hok : ∀ st n, ok st n) : I (Verif.ipoptInit dimG) := by
  unfold Verif.ipoptInit
  simp only [List.foldl_cons, List.foldl_nil]
  iterate 8 refine k.new (hok _ _) _ _ ?_
  exact h0

theorem Closed.invLoop {I : CaState → Prop} (k : Closed (fun _ _ => True) I) : ∀ (l : List Name) {st st' : CaState}, I st → Verif.invLoop l st = .ok st' → I st' := by
  intro l
  induction l with
  | nil => intro st st' i h; rw [Verif.invLoop] at h; injection h with h; exact h ▸ i
  | cons n l ih =>
    intro st st' i h
    rw [Verif.invLoop] at h
    obtain ⟨st1, h1, h⟩ := Except.bind_ok_iff.1 h
    rw [invStep] at h1
    obtain ⟨v, -, h1⟩ := Except.bind_ok_iff.1 h1
    obtain ⟨iv, -, h1⟩ := Except.bind_ok_iff.1 h1
    injection h1 with h1; subst h1
    exact ih (k.cons _ (k.cons _ (k.new trivial 1 1 (k.new trivial 1 1 i)))) h

theorem Closed.extraDuals {I : CaState → Prop} (k : Closed (fun _ _ => True) I) (a b : ℕ) {st : CaState} (i : I st) : I (Verif.extraDuals a b st) := by
  unfold Verif.extraDuals
  have h1 : I (if a ≥ 1 then (st.newVar "lamb0" a 1).subjectAll (nonneg ⟨st.sizes.length, a, 1⟩) else st) := by
    split
    · exact k.cons _ (k.new trivial _ _ i)
    · exact i
  simp only
  by_cases hb : b ≥ 1
  · rw [if_pos hb]; exact k.new trivial _ _ h1
  · rw [if_neg hb]; exact h1

theorem Closed.fnDuals {I : CaState → Prop} (k : Closed (fun _ _ => True) I) : ∀ (ns : List ℕ) (j : ℕ) {st : CaState}, I st → I (Verif.fnDuals ns j st) := by
  intro ns
  induction ns with
  | nil => exact fun _ _ i => i
  | cons n ns ih => exact fun j st i => ih _ (k.cons _ (k.new trivial _ _ i))

/-- how `ipoptNlp` proceeds -/
theorem ipoptNlp_stages {sm : SymMats} {ns : List ℕ} {nCons dimG dimF : ℕ} {params : List Name} {bounds : List Bound} {init : List Name} {goal : Sym} {nlp : Nlp}
    (h : ipoptNlp C sm ns nCons dimG dimF params bounds init goal = .ok nlp) :
    ∃ st1 pid cs, Verif.invLoop (invParams params) (Verif.ipoptInit dimG) = .ok st1 ∧
      ipoptFinish C sm dimG dimF pid init goal (Verif.fnDuals ns (if nCons - sm.nE ≥ 1 then 1 else 0)
        (Verif.extraDuals (nCons - sm.nE) sm.nE { Verif.addParams params st1 with cons := cs })) = .ok nlp := by
  rw [ipoptNlp] at h
  obtain ⟨st1, h1, h⟩ := Except.bind_ok_iff.1 h
  simp only at h
  split at h
  swap
  · cases h
  obtain ⟨p', -, h⟩ := Except.bind_ok_iff.1 h
  obtain ⟨-, -, h⟩ := Except.bind_ok_iff.1 h
  obtain ⟨bs, -, h⟩ := Except.bind_ok_iff.1 h
  obtain ⟨x1, -, h⟩ := Except.bind_ok_iff.1 h
  obtain ⟨x2, -, h⟩ := Except.bind_ok_iff.1 h
  obtain ⟨x3, -, h⟩ := Except.bind_ok_iff.1 h
  exact ⟨st1, _, _, h1, h⟩

/-! ### No more than the variables made -/

def CountLe (st : CaState) : Prop := (Dict.keys st.vars).Nodup ∧ caTotalSize st.vars ≤ st.count

theorem total_set_le {d : Dict Name CaVar} (hd : (Dict.keys d).Nodup) (n : Name) (v : CaVar) : caTotalSize (d.set n v) ≤ caTotalSize d + v.rows * v.cols := by
  rw [caTotalSize_eq, caTotalSize_eq, Dict.set]
  split
  · clear * - hd
    induction d with
    | nil => simp
    | cons x d ih =>
      obtain ⟨h1, h2⟩ := List.nodup_cons.1 (show (x.1 :: Dict.keys d).Nodup from hd)
      by_cases hx : x.1 = n
      · have : d.map (fun kv => if kv.1 = n then (n, v) else kv) = d := by
          conv_rhs => rw [← List.map_id d]
          refine List.map_congr_left fun kv hkv => ?_
          rw [if_neg fun he => h1 (by rw [hx, ← he]; exact List.mem_map_of_mem hkv)]; rfl
        simp only [List.map_cons, this, hx, if_true, List.sum_cons]
        omega
      · have := ih h2
        simp only [List.map_cons, hx, if_false, List.sum_cons]
        omega
  · simp

theorem closed_countLe : Closed (fun _ _ => True) CountLe := by
  refine ⟨fun {st n} _ a b i => ⟨Dict.nodup_set i.1 _ _, ?_⟩, fun cs i => i⟩
  have h1 := total_set_le i.1 n ⟨st.sizes.length, a, b⟩
  have h2 := i.2
  have h3 : (st.newVar n a b).count = st.count + a * b := by simp [CaState.count, CaState.newVar]
  rw [h3]
  exact h1.trans (by simpa using h2)

/-! ### Exactly the variables made -/

/-- the entries of `ca_vars` are the variables of `opti`, in order -/
def Named (st : CaState) : Prop := st.vars.map (fun kv => (kv.2.rows, kv.2.cols)) = st.sizes

theorem Named.new {st : CaState} (i : Named st) {n : Name} (h : st.vars.has n = false) (a b : ℕ) : Named (st.newVar n a b) := by
  unfold Named at i ⊢
  simp only [CaState.newVar, Dict.set, h, Bool.false_eq_true, if_false, List.map_append, List.map_cons, List.map_nil, i]

theorem closed_named : Closed (fun st n => st.vars.has n = false) Named := ⟨fun h a b i => i.new h a b, fun _ i => i⟩

theorem Named.total {st : CaState} (i : Named st) : caTotalSize st.vars = st.count := by
  rw [caTotalSize_eq, CaState.count, ← show _ = st.sizes from i, List.map_map]; rfl

theorem has_false {st : CaState} {n : Name} (h : n ∉ Dict.keys st.vars) : st.vars.has n = false := by
  rw [← Bool.not_eq_true, Dict.has_iff]; exact h

theorem keys_newVar (st : CaState) (n m : Name) (a b : ℕ) : m ∈ Dict.keys (st.newVar n a b).vars ↔ m ∈ Dict.keys st.vars ∨ m = n :=
  Dict.mem_keys_set _ _ _ _

theorem ipoptInit_keys (dimG : ℕ) : ∀ m ∈ Dict.keys (ipoptInit dimG).vars, m ∈ baseNames ∨ m = "P" := by
  intro m hm
  unfold ipoptInit at hm
  simp only [List.foldl_cons, List.foldl_nil, keys_newVar] at hm
  simp only [Dict.keys, List.map_nil, List.not_mem_nil, false_or] at hm
  simp only [baseNames, List.mem_cons, List.not_mem_nil, or_false]
  tauto

theorem ipoptInit_named (dimG : ℕ) : Named (ipoptInit dimG) := by
  simp [Named, ipoptInit, CaState.newVar, Dict.set, Dict.has, Dict.get?]

theorem invLoop_named : ∀ (l : List Name) {st st' : CaState}, l.Nodup → (∀ v ∈ l, ∀ w ∈ l, v ≠ "inv" ++ w) →
    (∀ n ∈ l, n ∉ Dict.keys st.vars ∧ "inv" ++ n ∉ Dict.keys st.vars) → Named st → invLoop l st = .ok st' →
    Named st' ∧ ∀ m ∈ Dict.keys st'.vars, m ∈ Dict.keys st.vars ∨ m ∈ l ∨ ∃ n ∈ l, m = "inv" ++ n := by
  intro l
  induction l with
  | nil => intro st st' _ _ _ i h; rw [invLoop] at h; injection h with h; subst h; exact ⟨i, fun m hm => .inl hm⟩
  | cons n l ih =>
    intro st st' hnd hne hf i h
    rw [invLoop] at h
    obtain ⟨st1, h1, h⟩ := Except.bind_ok_iff.1 h
    rw [invStep] at h1
    obtain ⟨v, -, h1⟩ := Except.bind_ok_iff.1 h1
    obtain ⟨iv, -, h1⟩ := Except.bind_ok_iff.1 h1
    injection h1 with h1; subst h1
    have hk : ∀ m, m ∈ Dict.keys ((st.newVar n 1 1).newVar ("inv" ++ n) 1 1).vars ↔ (m ∈ Dict.keys st.vars ∨ m = n) ∨ m = "inv" ++ n := by
      intro m; rw [keys_newVar, keys_newVar]
    obtain ⟨hn, hl⟩ := List.nodup_cons.1 hnd
    have i1 : Named ((st.newVar n 1 1).newVar ("inv" ++ n) 1 1) := by
      refine (i.new (has_false (hf n (by simp)).1) 1 1).new (has_false ?_) 1 1
      rw [keys_newVar]
      rintro (hh | hh)
      · exact (hf n (by simp)).2 hh
      · exact inv_ne n hh.symm
    obtain ⟨i2, k2⟩ := ih (st := _) hl (fun v hv w hw => hne v (by simp [hv]) w (by simp [hw])) (fun m hm => by
      constructor
      · show m ∉ Dict.keys ((st.newVar n 1 1).newVar ("inv" ++ n) 1 1).vars
        rw [hk]
        rintro ((hh | rfl) | hh)
        · exact (hf m (by simp [hm])).1 hh
        · exact hn hm
        · exact hne m (by simp [hm]) n (by simp) hh
      · show "inv" ++ m ∉ Dict.keys ((st.newVar n 1 1).newVar ("inv" ++ n) 1 1).vars
        rw [hk]
        rintro ((hh | hh) | hh)
        · exact (hf m (by simp [hm])).2 hh
        · exact hne n (by simp) m (by simp [hm]) hh.symm
        · exact hn (inv_inj hh ▸ hm)) (closed_named.cons _ (closed_named.cons _ i1)) h
    refine ⟨i2, fun m hm => ?_⟩
    rcases k2 m hm with hh | hh | ⟨w, hw, rfl⟩
    · rcases (hk m).1 hh with (hh | rfl) | rfl
      · exact .inl hh
      · exact .inr (.inl (by simp))
      · exact .inr (.inr ⟨n, by simp, rfl⟩)
    · exact .inr (.inl (by simp [hh]))
    · exact .inr (.inr ⟨w, by simp [hw], rfl⟩)

theorem addParams_keys {params : List Name} : ∀ {st : CaState}, ∀ m ∈ Dict.keys (addParams params st).vars, m ∈ Dict.keys st.vars ∨ m ∈ params := by
  unfold addParams
  induction params with
  | nil => exact fun m hm => .inl hm
  | cons n l ih =>
    intro st m hm
    rw [List.foldl_cons] at hm
    rcases ih m hm with hh | hh
    · split at hh
      · exact .inl hh
      · rw [keys_newVar] at hh
        rcases hh with hh | rfl
        · exact .inl hh
        · exact .inr (by simp)
    · exact .inr (by simp [hh])

theorem fnDuals_named : ∀ (ns : List ℕ) (k : ℕ) {st : CaState}, (∀ j ≥ k, lambVar j ∉ Dict.keys st.vars) → Named st → Named (fnDuals ns k st) := by
  intro ns
  induction ns with
  | nil => exact fun _ _ _ i => i
  | cons n ns ih =>
    intro k st hf i
    rw [fnDuals]
    refine ih (k + 1) (fun j hj => ?_) (closed_named.cons _ (i.new (has_false (hf k le_rfl)) n n))
    show lambVar j ∉ Dict.keys (st.newVar (lambVar k) n n).vars
    rw [keys_newVar]
    rintro (hh | hh)
    · exact hf j (by omega) hh
    · have := lambVar_inj hh; omega

theorem lambVar_dual (k : ℕ) : isLamb (lambVar k) = true := by
  unfold isLamb lambVar
  rw [String.toList_append]
  simp

theorem duals_named {st : CaState} (i : Named st) (hd : ∀ n ∈ Dict.keys st.vars, ¬ IsDual n) (nI nE : ℕ) (ns : List ℕ) :
    Named (fnDuals ns (if nI ≥ 1 then 1 else 0) (extraDuals nI nE st)) := by
  have hl : ∀ j, lambVar j ∉ Dict.keys st.vars := fun j hj => hd _ hj (.inl (lambVar_dual j))
  have hnu : "nu0" ∉ Dict.keys st.vars := fun hj => hd _ hj (.inr (by decide))
  have h0 : ("lamb0" : Name) = lambVar 0 := by decide
  have hnl : ∀ j, lambVar j ≠ "nu0" := fun j he => by
    have := lambVar_dual j
    rw [he] at this
    exact absurd this (by decide)
  unfold extraDuals
  by_cases ha : nI ≥ 1
  · have i1 : Named ((st.newVar "lamb0" nI 1).subjectAll (nonneg ⟨st.sizes.length, nI, 1⟩)) :=
      closed_named.cons _ (i.new (has_false (h0 ▸ hl 0)) _ _)
    have hk : ∀ m, m ∈ Dict.keys ((st.newVar "lamb0" nI 1).subjectAll (nonneg ⟨st.sizes.length, nI, 1⟩)).vars ↔ m ∈ Dict.keys st.vars ∨ m = lambVar 0 :=
      fun m => h0 ▸ keys_newVar st "lamb0" m nI 1
    simp only [ha, if_true]
    refine fnDuals_named ns 1 (fun j hj => ?_) ?_
    · have hj0 : lambVar j ≠ lambVar 0 := fun he => by have := lambVar_inj he; omega
      split
      · rw [keys_newVar, hk]
        rintro ((hh | hh) | hh)
        · exact hl j hh
        · exact hj0 hh
        · exact hnl j hh
      · rw [hk]
        rintro (hh | hh)
        · exact hl j hh
        · exact hj0 hh
    · split
      · refine i1.new (has_false ?_) _ _
        rw [hk]
        rintro (hh | hh)
        · exact hnu hh
        · exact hnl 0 hh.symm
      · exact i1
  · simp only [ha, if_false]
    refine fnDuals_named ns 0 (fun j _ => ?_) ?_
    · split
      · rw [keys_newVar]
        rintro (hh | hh)
        · exact hl j hh
        · exact hnl j hh
      · exact hl j
    · split
      · exact i.new (has_false hnu) _ _
      · exact i

end Verif
