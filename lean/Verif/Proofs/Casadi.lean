import Verif.Spec.Casadi
import Verif.Proofs.Coeff

/-!
# Conversion of polynomials to solver variables
-/

namespace Verif

variable {C : CAS}

theorem CExp.eval_congr {n : ℕ} {σ σ' : ℕ → ℕ → ℕ → ℝ} (h : ∀ v < n, ∀ a b, σ' v a b = σ v a b) : ∀ {e : CExp}, e.Below n → e.eval σ' = e.eval σ
  | .num _, _ => rfl
  | .var v a b, hb => h v hb a b
  | .add _ _, hb => by rw [CExp.eval, CExp.eval, eval_congr h hb.1, eval_congr h hb.2]
  | .mul _ _, hb => by rw [CExp.eval, CExp.eval, eval_congr h hb.1, eval_congr h hb.2]

theorem CExp.Below.mono {n m : ℕ} (hnm : n ≤ m) : ∀ {e : CExp}, e.Below n → e.Below m
  | .num _, _ => trivial
  | .var _ _ _, hb => lt_of_lt_of_le hb hnm
  | .add _ _, hb => ⟨hb.1.mono hnm, hb.2.mono hnm⟩
  | .mul _ _, hb => ⟨hb.1.mono hnm, hb.2.mono hnm⟩

theorem Constr.Below.mono {n m : ℕ} (hnm : n ≤ m) {c : Constr} (h : c.Below n) : c.Below m := by
  cases c with
  | eq a b => exact ⟨h.1.mono hnm, h.2.mono hnm⟩
  | ge a b => exact ⟨h.1.mono hnm, h.2.mono hnm⟩

theorem Constr.holds_congr {n : ℕ} {σ σ' : ℕ → ℕ → ℕ → ℝ} (h : ∀ v < n, ∀ a b, σ' v a b = σ v a b) {c : Constr} (hb : c.Below n) :
    c.Holds σ' ↔ c.Holds σ := by
  cases c with
  | eq a b => simp only [Constr.Holds, CExp.eval_congr h hb.1, CExp.eval_congr h hb.2]
  | ge a b => simp only [Constr.Holds, CExp.eval_congr h hb.1, CExp.eval_congr h hb.2]

/-- well formed, and every long variable equals the product of its parts -/
structure CaInv (st : CaState) : Prop where
  wf : st.Wf
  lift : ∀ σ, st.Sat σ → ∀ s ∈ Dict.keys st.vars, st.value σ s = longEnv (st.value σ) s

theorem CaInv.of_plain {st : CaState} (w : st.Wf) (hp : st.PlainKeys) : CaInv st :=
  ⟨w, fun _ _ s hs => (longEnv_plain (hp s hs)).symm⟩

/-- `st'` adds long variables and constraints to `st`; every solution of `st` extends -/
structure CaExt (st st' : CaState) : Prop where
  vars : ∃ ext : Dict Name CaVar, st'.vars = st.vars ++ ext ∧ ∀ kv ∈ ext, ¬ Plain kv.1 ∧ kv.2.rows = 1 ∧ kv.2.cols = 1
  cons : st.cons <+: st'.cons
  sizes : st.sizes <+: st'.sizes
  ext : ∀ σ, st.Sat σ → ∃ σ', (∀ v < st.sizes.length, ∀ a b, σ' v a b = σ v a b) ∧ st'.Sat σ'

theorem CaExt.refl (st : CaState) : CaExt st st :=
  ⟨⟨[], by simp, by simp⟩, List.prefix_rfl, List.prefix_rfl, fun σ h => ⟨σ, fun _ _ _ _ => rfl, h⟩⟩

theorem CaExt.trans {a b c : CaState} (h1 : CaExt a b) (h2 : CaExt b c) : CaExt a c := by
  obtain ⟨e1, p1, q1⟩ := h1.vars
  obtain ⟨e2, p2, q2⟩ := h2.vars
  refine ⟨⟨e1 ++ e2, by rw [p2, p1]; simp, ?_⟩, h1.cons.trans h2.cons, h1.sizes.trans h2.sizes, ?_⟩
  · intro kv hkv
    rcases List.mem_append.1 hkv with h | h
    · exact q1 kv h
    · exact q2 kv h
  · intro σ hσ
    obtain ⟨σ1, a1, s1⟩ := h1.ext σ hσ
    obtain ⟨σ2, a2, s2⟩ := h2.ext σ1 s1
    exact ⟨σ2, fun v hv x y => by rw [a2 v (lt_of_lt_of_le hv h1.sizes.length_le), a1 v hv], s2⟩

theorem CaExt.sat {st st' : CaState} (h : CaExt st st') {σ : ℕ → ℕ → ℕ → ℝ} (hs : st'.Sat σ) : st.Sat σ :=
  fun c hc => hs c (h.cons.subset hc)

theorem get?_append_notMem {α β : Type} [DecidableEq α] {d e : Dict α β} {k : α} (h : k ∉ Dict.keys e) : Dict.get? (d ++ e) k = Dict.get? d k := by
  rw [Dict.get?, Dict.get?, List.find?_append]
  have : List.find? (fun kv => decide (kv.1 = k)) e = none := by
    rw [List.find?_eq_none]
    intro kv hkv hh
    exact h (by rw [Dict.keys]; have := of_decide_eq_true hh; rw [← this]; exact List.mem_map_of_mem hkv)
  rw [this]; simp

theorem get?_append_mem {α β : Type} [DecidableEq α] {d e : Dict α β} {k : α} {v : β} (h : Dict.get? d k = some v) : Dict.get? (d ++ e) k = some v := by
  rw [Dict.get?, Option.map_eq_some_iff] at h
  obtain ⟨kv, h1, h2⟩ := h
  rw [Dict.get?, List.find?_append, h1]; simp [h2]

theorem CaExt.get_plain {st st' : CaState} (h : CaExt st st') {n : Name} (hn : Plain n) : st'.vars.get? n = st.vars.get? n := by
  obtain ⟨e, p, q⟩ := h.vars
  rw [p]
  apply get?_append_notMem
  intro hh
  obtain ⟨kv, hk, rfl⟩ := List.mem_map.1 hh
  exact (q kv hk).1 hn

theorem CaExt.get_some {st st' : CaState} (h : CaExt st st') {n : Name} {v : CaVar} (hn : st.vars.get? n = some v) : st'.vars.get? n = some v := by
  obtain ⟨e, p, q⟩ := h.vars
  rw [p]
  exact get?_append_mem hn

theorem CaExt.value_plain {st st' : CaState} (h : CaExt st st') {n : Name} (hn : Plain n) (σ) : st'.value σ n = st.value σ n := by
  rw [CaState.value, CaState.value, h.get_plain hn]

theorem CaExt.value_mem {st st' : CaState} (h : CaExt st st') {n : Name} (hn : n ∈ Dict.keys st.vars) (σ) : st'.value σ n = st.value σ n := by
  obtain ⟨v, hv⟩ := Option.isSome_iff_exists.1 ((Dict.get?_isSome_iff _ _).2 hn)
  rw [CaState.value, CaState.value, h.get_some hv, hv]

theorem longEnv_congr {f g : Name → ℝ} (h : ∀ n, Plain n → f n = g n) (n : Name) : longEnv f n = longEnv g n := by
  rw [longEnv, longEnv]
  congr 1
  exact List.map_congr_left fun p hp => h p (splitU_parts n p hp)

theorem CaExt.longValue {st st' : CaState} (h : CaExt st st') (σ) (n : Name) : longEnv (st'.value σ) n = longEnv (st.value σ) n :=
  longEnv_congr (fun _ hn => h.value_plain hn σ) n

theorem decodeDual_plain {n pre : Name} {a b : ℕ} (hn : Plain n) (h : decodeDual n = .ok (pre, a, b)) : Plain pre := by
  rw [decodeDual] at h
  split at h
  · rename_i p ab x hs
    split at h
    · rename_i sa sb hab
      obtain ⟨a', -, h⟩ := Except.bind_ok_iff.1 h
      obtain ⟨b', -, h⟩ := Except.bind_ok_iff.1 h
      injection h with h
      simp only [Prod.mk.injEq] at h
      rw [← h.1]
      have key : ∀ (s : List Char) (ps : List (List Char)), s.splitOn '|' = ps → ∀ q ∈ ps, ∀ c ∈ q, c ∈ s := by
        intro s
        induction s with
        | nil => intro ps hps q hq c hc; subst hps; simp at hq; subst hq; simp at hc
        | cons x s ih =>
          intro ps hps q hq c hc
          rw [List.splitOn_cons_eq_if_modifyHead] at hps
          split at hps
          · subst hps
            rcases List.mem_cons.1 hq with rfl | hq
            · simp at hc
            · exact List.mem_cons_of_mem _ (ih _ rfl q hq c hc)
          · cases hs : s.splitOn '|' with
            | nil => exact absurd hs (List.splitOn_ne_nil _ _)
            | cons y t =>
              rw [hs] at hps
              subst hps
              simp only [List.modifyHead_cons, List.mem_cons] at hq
              rcases hq with rfl | hq
              · rcases List.mem_cons.1 hc with rfl | hc
                · simp
                · exact List.mem_cons_of_mem _ (ih _ hs y (by simp) c hc)
              · exact List.mem_cons_of_mem _ (ih _ hs q (by simp [hq]) c hc)
      intro hh
      rw [String.toList_ofList] at hh
      exact hn (key _ _ hs p (by simp) '_' hh)
    · simp at h
  · simp at h

theorem CaExt.symVal_plain {st st' : CaState} (h : CaExt st st') {n : Name} (hn : Plain n) (σ) : st'.symVal σ n = st.symVal σ n := by
  rw [CaState.symVal, CaState.symVal]
  split
  · split
    · rename_i pre a b hd
      rw [h.get_plain (decodeDual_plain hn hd)]
    · rfl
  · exact h.value_plain hn σ

theorem CaExt.longSym {st st' : CaState} (h : CaExt st st') (σ) (n : Name) : longEnv (st'.symVal σ) n = longEnv (st.symVal σ) n :=
  longEnv_congr (fun _ hn => h.symVal_plain hn σ) n

theorem scalar_inv {st : CaState} {n : Name} {x : CExp} (h : st.scalar n = .ok x) : ∃ v, st.vars.get? n = some v ∧ x = .var v.id 0 0 := by
  rw [CaState.scalar] at h
  split at h
  · simp at h
  · rename_i v hv
    split at h
    · injection h with h; exact ⟨v, hv, h.symm⟩
    · simp at h

theorem scalar_value {st : CaState} {n : Name} {x : CExp} (h : st.scalar n = .ok x) (σ) : x.eval σ = st.value σ n := by
  obtain ⟨v, hv, rfl⟩ := scalar_inv h
  rw [CaState.value, hv]; rfl

theorem scalar_mem {st : CaState} {n : Name} {x : CExp} (h : st.scalar n = .ok x) : n ∈ Dict.keys st.vars := by
  obtain ⟨v, hv, rfl⟩ := scalar_inv h
  exact (Dict.get?_isSome_iff _ _).1 (by rw [hv]; rfl)

theorem not_plain_join {l : List Name} (hl : l ≠ []) (a : Name) : ¬ Plain (joinU (l ++ [a])) := by
  rw [joinU_concat hl, Plain]; simp

theorem join_ne_join {l : List Name} (hl : l ≠ []) {a : Name} (h : ∀ n ∈ l ++ [a], Plain n) : joinU l ≠ joinU (l ++ [a]) := by
  intro hh
  have := joinU_inj hl (by simp) (fun n hn => h n (List.mem_append_left _ hn)) h hh
  have := congrArg List.length this
  simp at this

/-- making a new product variable -/
theorem newProduct {st : CaState} {pre : List Name} {el : Name} {x a b : CExp} (i : CaInv st) (hpre : pre ≠ []) (hpl : ∀ n ∈ pre ++ [el], Plain n)
    (hh : st.vars.has (joinU (pre ++ [el])) = false)
    (hx : (st.newVar (joinU (pre ++ [el])) 1 1).scalar (joinU (pre ++ [el])) = .ok x)
    (ha : (st.newVar (joinU (pre ++ [el])) 1 1).scalar (joinU pre) = .ok a) (hb : (st.newVar (joinU (pre ++ [el])) 1 1).scalar el = .ok b) :
    CaInv ((st.newVar (joinU (pre ++ [el])) 1 1).subjectTo (.eq x (.mul a b))) ∧
    CaExt st ((st.newVar (joinU (pre ++ [el])) 1 1).subjectTo (.eq x (.mul a b))) := by
  set nm := joinU (pre ++ [el]) with hnm
  have hnk : nm ∉ Dict.keys st.vars := fun hk => by rw [← Dict.has_iff] at hk; rw [hk] at hh; cases hh
  have hvars : (st.newVar nm 1 1).vars = st.vars ++ [(nm, ⟨st.sizes.length, 1, 1⟩)] := Dict.set_new _ hnk
  have hnp : ¬ Plain nm := not_plain_join hpre el
  have hg : ∀ n, n ≠ nm → (st.newVar nm 1 1).vars.get? n = st.vars.get? n := by
    intro n hn
    rw [hvars]; apply get?_append_notMem; simpa using hn
  have hgn : (st.newVar nm 1 1).vars.get? nm = some ⟨st.sizes.length, 1, 1⟩ := by
    show Dict.get? (Dict.set _ _ _) _ = _
    rw [Dict.get?_set, if_pos rfl]
  have hel : el ≠ nm := fun hh => hnp (hh ▸ hpl el (by simp))
  have hpn : joinU pre ≠ nm := join_ne_join hpre hpl
  obtain ⟨vx, hvx, rfl⟩ := scalar_inv hx
  obtain ⟨va, hva, rfl⟩ := scalar_inv ha
  obtain ⟨vb, hvb, rfl⟩ := scalar_inv hb
  rw [hgn] at hvx; injection hvx with hvx; subst hvx
  rw [hg _ hpn] at hva
  rw [hg _ hel] at hvb
  have hida := i.wf.ids _ (Dict.mem_of_get? hva)
  have hidb := i.wf.ids _ (Dict.mem_of_get? hvb)
  simp only at hida hidb
  have hlen : (st.newVar nm 1 1).sizes.length = st.sizes.length + 1 := by simp [CaState.newVar]
  have hval : ∀ σ n, n ≠ nm → ((st.newVar nm 1 1).subjectTo (.eq (.var st.sizes.length 0 0) (.mul (.var va.id 0 0) (.var vb.id 0 0)))).value σ n = st.value σ n := by
    intro σ n hn
    rw [CaState.value, CaState.value]
    show (match (st.newVar nm 1 1).vars.get? n with | some v => σ v.id 0 0 | none => 0) = _
    rw [hg n hn]; rfl
  have hlong : ∀ σ n, longEnv (((st.newVar nm 1 1).subjectTo (.eq (.var st.sizes.length 0 0) (.mul (.var va.id 0 0) (.var vb.id 0 0)))).value σ) n =
      longEnv (st.value σ) n := fun σ n => longEnv_congr (fun m hm => hval σ m (fun hh => hnp (hh ▸ hm))) n
  refine ⟨⟨⟨?_, ?_, ?_⟩, ?_⟩, ⟨⟨_, hvars, ?_⟩, List.prefix_append _ _, List.prefix_append _ _, ?_⟩⟩
  · exact Dict.nodup_set i.wf.nodup _ _
  · intro kv hkv
    show kv.2.id < (st.newVar nm 1 1).sizes.length
    rw [hlen]
    have : kv ∈ (st.newVar nm 1 1).vars := hkv
    rw [hvars] at this
    rcases List.mem_append.1 this with h | h
    · have := i.wf.ids kv h; omega
    · rw [List.mem_singleton] at h; subst h; simp
  · intro c hc
    show c.Below (st.newVar nm 1 1).sizes.length
    rw [hlen]
    rcases List.mem_append.1 hc with h | h
    · exact (i.wf.cons c h).mono (by omega)
    · rw [List.mem_singleton] at h; subst h
      exact ⟨Nat.lt_succ_self _, by exact Nat.lt_succ_of_lt hida, by exact Nat.lt_succ_of_lt hidb⟩
  · intro σ hσ s hs
    have hs0 : st.Sat σ := fun c hc => hσ c (List.mem_append_left _ hc)
    have hnew : (σ st.sizes.length 0 0 : ℝ) = σ va.id 0 0 * σ vb.id 0 0 :=
      hσ (.eq (.var st.sizes.length 0 0) (.mul (.var va.id 0 0) (.var vb.id 0 0))) (by simp [CaState.subjectTo])
    rw [hlong]
    by_cases hsn : s = nm
    · subst hsn
      rw [CaState.value]
      show (match (st.newVar nm 1 1).vars.get? nm with | some v => σ v.id 0 0 | none => 0) = _
      rw [hgn]
      show σ st.sizes.length 0 0 = _
      rw [hnew]
      have e1 : st.value σ (joinU pre) = σ va.id 0 0 := by rw [CaState.value, hva]
      have e2 : st.value σ el = σ vb.id 0 0 := by rw [CaState.value, hvb]
      rw [← e1, ← e2, i.lift σ hs0 _ ((Dict.get?_isSome_iff _ _).1 (by rw [hva]; rfl)), hnm, longEnv_join (l := pre ++ [el]) _ (by simp), longEnv_join _ hpre]
      rw [List.map_append, List.prod_append]
      simp [longEnv_plain (hpl el (by simp))]
    · rw [hval σ s hsn]
      have : s ∈ Dict.keys (st.newVar nm 1 1).vars := hs
      rw [hvars, Dict.keys_append] at this
      rcases List.mem_append.1 this with h | h
      · exact i.lift σ hs0 s h
      · simp at h; exact absurd h hsn
  · intro kv hkv
    rw [List.mem_singleton] at hkv; subst hkv; exact ⟨hnp, rfl, rfl⟩
  · intro σ hσ
    refine ⟨fun v p q => if v = st.sizes.length then σ va.id 0 0 * σ vb.id 0 0 else σ v p q, ?_, ?_⟩
    · intro v hv p q; exact if_neg (by omega)
    · intro c hc
      rcases List.mem_append.1 hc with h | h
      · refine (Constr.holds_congr (n := st.sizes.length) (σ := σ) ?_ (i.wf.cons c h)).2 (hσ c h)
        intro v hv p q; exact if_neg (by omega)
      · rw [List.mem_singleton] at h; subst h
        show (if st.sizes.length = st.sizes.length then _ else _) = (if va.id = _ then _ else _) * (if vb.id = _ then _ else _)
        rw [if_pos rfl, if_neg (by omega), if_neg (by omega)]

theorem linLoop_spec : ∀ (rest pre : List Name) {st st' : CaState}, pre ≠ [] → (∀ n ∈ pre ++ rest, Plain n) → CaInv st →
    linLoop pre rest st = .ok st' → CaInv st' ∧ CaExt st st' := by
  intro rest
  induction rest with
  | nil =>
    intro pre st st' _ _ i h
    rw [linLoop] at h
    injection h with h; subst h
    exact ⟨i, CaExt.refl _⟩
  | cons el rest ih =>
    intro pre st st' hpre hpl i h
    have e : pre ++ el :: rest = pre ++ [el] ++ rest := by simp
    rw [e] at hpl
    rw [linLoop] at h
    split at h
    · exact ih _ (by simp) hpl i h
    · rename_i hh
      obtain ⟨x, hx, h⟩ := Except.bind_ok_iff.1 h
      obtain ⟨a, ha, h⟩ := Except.bind_ok_iff.1 h
      obtain ⟨b, hb, h⟩ := Except.bind_ok_iff.1 h
      obtain ⟨i1, e1⟩ := newProduct i hpre (fun n hn => hpl n (List.mem_append_left _ hn)) (by simpa using hh) hx ha hb
      obtain ⟨i2, e2⟩ := ih _ (by simp) hpl i1 h
      exact ⟨i2, e1.trans e2⟩

theorem linMonomial_spec {l : List Name} {st st' : CaState} {x : CExp} (hpl : ∀ n ∈ l, Plain n) (i : CaInv st)
    (h : linMonomial l st = .ok (x, st')) :
    CaInv st' ∧ CaExt st st' ∧ x.Below st'.sizes.length ∧ ∀ σ, st'.Sat σ → x.eval σ = (l.map (st.value σ)).prod := by
  rw [linMonomial] at h
  split at h
  · rename_i hs
    injection h with h
    simp only [Prod.mk.injEq] at h
    obtain ⟨rfl, rfl⟩ := h
    rw [sortNames_eq_nil] at hs; subst hs
    exact ⟨i, CaExt.refl _, trivial, fun σ _ => by simp [CExp.eval]⟩
  · rename_i a rest hs
    obtain ⟨st1, h1, h⟩ := Except.bind_ok_iff.1 h
    obtain ⟨y, hy, h⟩ := Except.bind_ok_iff.1 h
    injection h with h
    simp only [Prod.mk.injEq] at h
    obtain ⟨rfl, rfl⟩ := h
    have hpl' : ∀ n ∈ a :: rest, Plain n := fun n hn => hpl n (mem_sortNames.1 (by rw [hs]; exact hn))
    obtain ⟨i1, e1⟩ := linLoop_spec rest [a] (by simp) hpl' i h1
    refine ⟨i1, e1, ?_, ?_⟩
    · obtain ⟨v, hv, rfl⟩ := scalar_inv hy
      exact i1.wf.ids _ (Dict.mem_of_get? hv)
    · intro σ hσ
      rw [scalar_value hy, i1.lift σ hσ _ (scalar_mem hy), longEnv_join _ (by simp), ← hs, prod_sortNames]
      congr 1
      refine List.map_congr_left fun n hn => ?_
      rw [longEnv_plain (hpl n hn), e1.value_plain (hpl n hn)]

/-- what `find_lambda_nu` computes -/
theorem findDual_spec (l : List Name) : (findDual l).countLamb = l.countP isLamb ∧ (findDual l).countNu = l.countP (fun n => !isLamb n && isNu n) ∧
    (0 < (findDual l).countLamb → ∃ n, l[(findDual l).idxLamb]? = some n ∧ isLamb n = true) ∧
    (0 < (findDual l).countNu → ∃ n, l[(findDual l).idxNu]? = some n ∧ isLamb n = false ∧ isNu n = true) := by
  unfold findDual
  induction l using List.reverseRecOn with
  | nil => simp
  | append_singleton l a ih =>
    rw [List.zipIdx_append, List.foldl_append]
    generalize hd : List.foldl dualStep ⟨0, 0, 0, 0⟩ l.zipIdx = d at ih ⊢
    obtain ⟨h1, h2, h3, h4⟩ := ih
    have hget : ∀ {k : ℕ} {n : Name}, l[k]? = some n → (l ++ [a])[k]? = some n := by
      intro k n hk
      rw [List.getElem?_append_left (List.getElem?_eq_some_iff.1 hk).1]; exact hk
    have hlast : (l ++ [a])[l.length]? = some a := by simp
    simp only [List.zipIdx_cons, List.zipIdx_nil, List.foldl_cons, List.foldl_nil, Nat.zero_add, List.countP_append, List.countP_singleton]
    rw [dualStep]
    simp only
    by_cases hl : isLamb a = true
    · rw [if_pos hl]
      simp only [hl, Bool.not_true, Bool.false_and, Bool.false_eq_true, if_false, if_true]
      refine ⟨by omega, by omega, fun _ => ⟨a, hlast, hl⟩, fun hp => ?_⟩
      obtain ⟨n, p, q⟩ := h4 hp; exact ⟨n, hget p, q⟩
    · rw [if_neg hl]
      rw [Bool.not_eq_true] at hl
      by_cases hn : isNu a = true
      · rw [if_pos hn]
        simp only [hl, hn, Bool.not_false, Bool.and_self, if_true, Bool.false_eq_true, if_false]
        refine ⟨by omega, by omega, fun hp => ?_, fun _ => ⟨a, hlast, hl, hn⟩⟩
        obtain ⟨n, p, q⟩ := h3 hp; exact ⟨n, hget p, q⟩
      · rw [if_neg hn]
        rw [Bool.not_eq_true] at hn
        simp only [hl, hn, Bool.and_false, Bool.false_eq_true, if_false]
        refine ⟨by omega, by omega, fun hp => ?_, fun hp => ?_⟩
        · obtain ⟨n, p, q⟩ := h3 hp; exact ⟨n, hget p, q⟩
        · obtain ⟨n, p, q⟩ := h4 hp; exact ⟨n, hget p, q⟩

theorem countP_eraseIdx {α : Type} {p : α → Bool} {l : List α} {i : ℕ} {a : α} (h : l[i]? = some a) :
    l.countP p = (l.eraseIdx i).countP p + if p a then 1 else 0 := by
  obtain ⟨hi, rfl⟩ := List.getElem?_eq_some_iff.1 h
  rw [← (List.getElem_cons_eraseIdx_perm hi).countP_eq p, List.countP_cons]

theorem entry_symVal {st : CaState} {n pre : Name} {a b : ℕ} {x : CExp} (hd : IsDual n) (h : decodeDual n = .ok (pre, a, b))
    (hx : st.entry pre a b = .ok x) (σ) : x.eval σ = st.symVal σ n ∧ ∃ v, st.vars.get? pre = some v ∧ x = .var v.id a b := by
  rw [CaState.entry] at hx
  split at hx
  · simp at hx
  · rename_i v hv
    split at hx
    · injection hx with hx; subst hx
      refine ⟨?_, v, hv, rfl⟩
      rw [CaState.symVal, if_pos hd, h]
      simp only
      rw [hv]; rfl
    · simp at hx

theorem dualMonomial_spec {parts : List Name} {idx : ℕ} {name : Name} {st st' : CaState} {x : CExp} (hpl : ∀ n ∈ parts, Plain n) (i : CaInv st)
    (hn : parts[idx]? = some name) (hd : IsDual name) (hrest : ∀ n ∈ parts.eraseIdx idx, ¬ IsDual n)
    (h : dualMonomial parts idx st = .ok (x, st')) :
    CaInv st' ∧ CaExt st st' ∧ x.Below st'.sizes.length ∧ ∀ σ, st'.Sat σ → x.eval σ = (parts.map (st.symVal σ)).prod := by
  rw [dualMonomial, hn] at h
  simp only at h
  obtain ⟨⟨pre, a, b⟩, hdec, h⟩ := Except.bind_ok_iff.1 h
  obtain ⟨y, hy, h⟩ := Except.bind_ok_iff.1 h
  obtain ⟨⟨z, st1⟩, hz, h⟩ := Except.bind_ok_iff.1 h
  injection h with h
  simp only [Prod.mk.injEq] at h
  obtain ⟨rfl, rfl⟩ := h
  obtain ⟨i1, e1, b1, v1⟩ := linMonomial_spec (fun n hn' => hpl n (List.mem_of_mem_eraseIdx hn')) i hz
  refine ⟨i1, e1, ⟨?_, b1⟩, ?_⟩
  · obtain ⟨-, v, hv, rfl⟩ := entry_symVal hd hdec hy (fun _ _ _ => 0)
    exact lt_of_lt_of_le (i.wf.ids _ (Dict.mem_of_get? hv)) e1.sizes.length_le
  · intro σ hσ
    obtain ⟨hi, rfl⟩ := List.getElem?_eq_some_iff.1 hn
    have := ((List.getElem_cons_eraseIdx_perm hi).map (st.symVal σ)).prod_eq
    rw [← this, List.map_cons, List.prod_cons]
    show y.eval σ * z.eval σ = _
    rw [(entry_symVal hd hdec hy σ).1, v1 σ hσ]
    congr 2
    refine List.map_congr_left fun n hn' => ?_
    rw [CaState.symVal, if_neg (hrest n hn')]

theorem lambMonomial_spec {parts : List Name} {st st' : CaState} {x : CExp} (hpl : ∀ n ∈ parts, Plain n) (i : CaInv st)
    (h : lambMonomial parts st = .ok (x, st')) :
    CaInv st' ∧ CaExt st st' ∧ x.Below st'.sizes.length ∧ ∀ σ, st'.Sat σ → x.eval σ = (parts.map (st.symVal σ)).prod := by
  obtain ⟨c1, c2, c3, c4⟩ := findDual_spec parts
  rw [lambMonomial] at h
  split at h
  · split at h
    · rename_i hcount
      have hnone : ∀ l : List Name, l.countP isLamb = 0 → l.countP (fun n => !isLamb n && isNu n) = 0 → ∀ n ∈ l, ¬ IsDual n := by
        intro l h1 h2 n hn hd
        rw [List.countP_eq_zero] at h1 h2
        have a1 := h1 n hn
        have a2 := h2 n hn
        rw [Bool.not_eq_true] at a1
        rcases hd with hd | hd
        · rw [hd] at a1; cases a1
        · simp [a1, hd] at a2
      split at h
      · rename_i hl
        obtain ⟨n, hn, hlam⟩ := c3 hl
        have e1 := countP_eraseIdx (p := isLamb) hn
        have e2 := countP_eraseIdx (p := fun n => !isLamb n && isNu n) hn
        rw [if_pos hlam] at e1
        refine dualMonomial_spec hpl i hn (Or.inl hlam) (hnone _ ?_ ?_) h
        · omega
        · simp only [hlam] at e2; omega
      · rename_i hl
        split at h
        · rename_i hnu
          obtain ⟨n, hn, hlam, hisnu⟩ := c4 hnu
          have e1 := countP_eraseIdx (p := isLamb) hn
          have e2 := countP_eraseIdx (p := fun n => !isLamb n && isNu n) hn
          simp only [hlam, hisnu, Bool.not_false, Bool.and_self, if_true, Bool.false_eq_true, if_false] at e1 e2
          exact dualMonomial_spec hpl i hn (Or.inr hisnu) (hnone _ (by omega) (by omega)) h
        · rename_i hnu
          obtain ⟨i1, e1, b1, v1⟩ := linMonomial_spec hpl i h
          refine ⟨i1, e1, b1, fun σ hσ => ?_⟩
          rw [v1 σ hσ]
          congr 1
          refine List.map_congr_left fun n hn => ?_
          rw [CaState.symVal, if_neg (hnone _ (by omega) (by omega) n hn)]
    · simp at h
  · rename_i hne
    push Not at hne
    injection h with h
    simp only [Prod.mk.injEq] at h
    obtain ⟨rfl, rfl⟩ := h
    rw [hne]
    exact ⟨i, CaExt.refl _, trivial, fun σ _ => by simp [CExp.eval]⟩

theorem monoParts_plain (t : PolyTerm) : ∀ n ∈ monoParts t, Plain n := by
  intro n hn
  rw [monoParts, List.mem_flatMap] at hn
  obtain ⟨p, -, hn⟩ := hn
  rw [List.mem_flatten] at hn
  obtain ⟨l, hl, hn⟩ := hn
  rw [(List.mem_replicate.1 hl).2] at hn
  exact splitU_parts _ n hn

theorem PolyTerm.eval_congr {env env' : Name → ℝ} (h : ∀ n, env n = env' n) (t : PolyTerm) : t.eval env = t.eval env' := by
  have : env = env' := funext h
  rw [this]

theorem lambTerms_spec : ∀ (ts : List PolyTerm) {acc x : CExp} {st st' : CaState}, CaInv st → acc.Below st.sizes.length →
    lambTerms ts acc st = .ok (x, st') → CaInv st' ∧ CaExt st st' ∧ x.Below st'.sizes.length ∧
      ∀ σ, st'.Sat σ → x.eval σ = acc.eval σ + (ts.map (PolyTerm.eval (longEnv (st.symVal σ)))).sum := by
  intro ts
  induction ts with
  | nil =>
    intro acc x st st' i hb h
    rw [lambTerms] at h
    injection h with h
    simp only [Prod.mk.injEq] at h
    obtain ⟨rfl, rfl⟩ := h
    exact ⟨i, CaExt.refl _, hb, fun σ _ => by simp⟩
  | cons t ts ih =>
    intro acc x st st' i hb h
    rw [lambTerms] at h
    obtain ⟨⟨y, st1⟩, h1, h⟩ := Except.bind_ok_iff.1 h
    obtain ⟨i1, e1, b1, v1⟩ := lambMonomial_spec (monoParts_plain t) i h1
    obtain ⟨i2, e2, b2, v2⟩ := ih (acc := .add acc (.mul (.num t.2) y)) i1 ⟨hb.mono e1.sizes.length_le, trivial, b1⟩ h
    refine ⟨i2, e1.trans e2, b2, fun σ hσ => ?_⟩
    rw [v2 σ hσ, List.map_cons, List.sum_cons, prod_monoParts]
    show acc.eval σ + (t.2 : ℝ) * y.eval σ + _ = _
    rw [v1 σ (e2.sat hσ), add_assoc]
    congr 3
    exact List.map_congr_left fun u _ => PolyTerm.eval_congr (e1.longSym σ) u

theorem exprToCasadiLamb_spec (hC : C.Lawful) {e : Sym} {x : CExp} {st st' : CaState} (i : CaInv st) (h : exprToCasadiLamb C e st = .ok (x, st')) :
    CaInv st' ∧ CaExt st st' ∧ x.Below st'.sizes.length ∧ ∀ σ, st'.Sat σ → x.eval σ = e.eval (longEnv (st.symVal σ)) := by
  rw [exprToCasadiLamb] at h
  split at h
  · rename_i hc
    injection h with h
    simp only [Prod.mk.injEq] at h
    obtain ⟨rfl, rfl⟩ := h
    exact ⟨i, CaExt.refl _, trivial, fun σ _ => by rw [isConst_eval hC hc]; rfl⟩
  · obtain ⟨i1, e1, b1, v1⟩ := lambTerms_spec _ (acc := .num 0) i trivial h
    refine ⟨i1, e1, b1, fun σ hσ => ?_⟩
    rw [v1 σ hσ, hC.poly_eval, hC.simp_eval]
    simp [CExp.eval]

theorem exprsToCasadi_spec (hC : C.Lawful) : ∀ (es : List Sym) {xs : List CExp} {st st' : CaState}, CaInv st → exprsToCasadi C es st = .ok (xs, st') →
    CaInv st' ∧ CaExt st st' ∧ (∀ x ∈ xs, x.Below st'.sizes.length) ∧
      ∀ σ, st'.Sat σ → xs.map (CExp.eval σ) = es.map (Sym.eval (longEnv (st.symVal σ))) := by
  intro es
  induction es with
  | nil =>
    intro xs st st' i h
    rw [exprsToCasadi] at h
    injection h with h
    simp only [Prod.mk.injEq] at h
    obtain ⟨rfl, rfl⟩ := h
    exact ⟨i, CaExt.refl _, by simp, fun σ _ => by simp⟩
  | cons e es ih =>
    intro xs st st' i h
    rw [exprsToCasadi] at h
    obtain ⟨⟨y, st1⟩, h1, h⟩ := Except.bind_ok_iff.1 h
    obtain ⟨⟨ys, st2⟩, h2, h⟩ := Except.bind_ok_iff.1 h
    injection h with h
    simp only [Prod.mk.injEq] at h
    obtain ⟨rfl, rfl⟩ := h
    obtain ⟨i1, e1, b1, v1⟩ := exprToCasadiLamb_spec hC i h1
    obtain ⟨i2, e2, b2, v2⟩ := ih i1 h2
    refine ⟨i2, e1.trans e2, ?_, fun σ hσ => ?_⟩
    · intro x hx
      rcases List.mem_cons.1 hx with rfl | hx
      · exact b1.mono e2.sizes.length_le
      · exact b2 x hx
    · rw [List.map_cons, List.map_cons, v1 σ (e2.sat hσ), v2 σ hσ]
      congr 1
      exact List.map_congr_left fun u _ => Sym.eval_congr u fun n _ => e1.longSym σ n

theorem plainTerms_spec : ∀ (ts : List PolyTerm) {acc x : CExp} {st st' : CaState}, CaInv st → acc.Below st.sizes.length →
    plainTerms ts acc st = .ok (x, st') → CaInv st' ∧ CaExt st st' ∧ x.Below st'.sizes.length ∧
      ∀ σ, st'.Sat σ → x.eval σ = acc.eval σ + (ts.map (PolyTerm.eval (longEnv (st.value σ)))).sum := by
  intro ts
  induction ts with
  | nil =>
    intro acc x st st' i hb h
    rw [plainTerms] at h
    injection h with h
    simp only [Prod.mk.injEq] at h
    obtain ⟨rfl, rfl⟩ := h
    exact ⟨i, CaExt.refl _, hb, fun σ _ => by simp⟩
  | cons t ts ih =>
    intro acc x st st' i hb h
    rw [plainTerms] at h
    obtain ⟨⟨y, st1⟩, h1, h⟩ := Except.bind_ok_iff.1 h
    obtain ⟨i1, e1, b1, v1⟩ := linMonomial_spec (monoParts_plain t) i h1
    obtain ⟨i2, e2, b2, v2⟩ := ih (acc := .add acc (.mul (.num t.2) y)) i1 ⟨hb.mono e1.sizes.length_le, trivial, b1⟩ h
    refine ⟨i2, e1.trans e2, b2, fun σ hσ => ?_⟩
    rw [v2 σ hσ, List.map_cons, List.sum_cons, prod_monoParts]
    show acc.eval σ + (t.2 : ℝ) * y.eval σ + _ = _
    rw [v1 σ (e2.sat hσ), add_assoc]
    congr 3
    exact List.map_congr_left fun u _ => PolyTerm.eval_congr (e1.longValue σ) u

theorem exprToCasadi_spec (hC : C.Lawful) {e : Sym} {x : CExp} {st st' : CaState} (i : CaInv st) (h : exprToCasadi C e st = .ok (x, st')) :
    CaInv st' ∧ CaExt st st' ∧ x.Below st'.sizes.length ∧ ∀ σ, st'.Sat σ → x.eval σ = e.eval (longEnv (st.value σ)) := by
  rw [exprToCasadi] at h
  split at h
  · rename_i hc
    injection h with h
    simp only [Prod.mk.injEq] at h
    obtain ⟨rfl, rfl⟩ := h
    exact ⟨i, CaExt.refl _, trivial, fun σ _ => by rw [isConst_eval hC hc]; rfl⟩
  · obtain ⟨i1, e1, b1, v1⟩ := plainTerms_spec _ (acc := .num 0) i trivial h
    refine ⟨i1, e1, b1, fun σ hσ => ?_⟩
    rw [v1 σ hσ, hC.poly_eval, hC.simp_eval]
    simp [CExp.eval]

/-! ### Success -/

/-- product variables are scalars -/
def LongScalar (st : CaState) : Prop := ∀ kv ∈ st.vars, ¬ Plain kv.1 → kv.2.rows = 1 ∧ kv.2.cols = 1

theorem CaExt.longScalar {st st' : CaState} (h : CaExt st st') (hs : LongScalar st) : LongScalar st' := by
  obtain ⟨e, p, q⟩ := h.vars
  intro kv hkv hn
  rw [p] at hkv
  rcases List.mem_append.1 hkv with hk | hk
  · exact hs kv hk hn
  · exact (q kv hk).2

theorem scalar_of_get {st : CaState} {n : Name} {v : CaVar} (h : st.vars.get? n = some v) (hv : v.rows = 1 ∧ v.cols = 1) :
    st.scalar n = .ok (.var v.id 0 0) := by
  rw [CaState.scalar, h]; simp [hv]

theorem CaExt.scalar_ok {st st' : CaState} (h : CaExt st st') {n : Name} (hn : ∃ x, st.scalar n = .ok x) : ∃ x, st'.scalar n = .ok x := by
  obtain ⟨x, hx⟩ := hn
  rw [CaState.scalar] at hx
  split at hx
  · simp at hx
  · rename_i v hv
    split at hx
    · rename_i hh
      exact ⟨_, scalar_of_get (h.get_some hv) hh⟩
    · simp at hx

theorem newVar_scalar {st : CaState} {nm n : Name} (h : ∃ x, st.scalar n = .ok x) : ∃ x, (st.newVar nm 1 1).scalar n = .ok x := by
  by_cases hn : n = nm
  · subst hn
    exact ⟨_, scalar_of_get (by show Dict.get? (Dict.set _ _ _) _ = _; rw [Dict.get?_set, if_pos rfl]) ⟨rfl, rfl⟩⟩
  · obtain ⟨x, hx⟩ := h
    refine ⟨x, ?_⟩
    rw [← hx, CaState.scalar, CaState.scalar]
    have : (st.newVar nm 1 1).vars.get? n = st.vars.get? n := by
      show Dict.get? (Dict.set _ _ _) _ = _
      rw [Dict.get?_set, if_neg hn]
    rw [this]

theorem linLoop_ok : ∀ (rest pre : List Name) {st : CaState}, pre ≠ [] → (∀ n ∈ pre ++ rest, Plain n) → CaInv st → LongScalar st →
    (∃ x, st.scalar (joinU pre) = .ok x) → (∀ n ∈ rest, ∃ x, st.scalar n = .ok x) →
    ∃ st', linLoop pre rest st = .ok st' ∧ ∃ x, st'.scalar (joinU (pre ++ rest)) = .ok x := by
  intro rest
  induction rest with
  | nil => intro pre st _ _ _ _ h _; exact ⟨st, rfl, by simpa using h⟩
  | cons el rest ih =>
    intro pre st hpre hpl i hs h0 h1
    have e : pre ++ el :: rest = pre ++ [el] ++ rest := by simp
    rw [e] at hpl
    rw [linLoop]
    split
    · rename_i hh
      rw [e]
      obtain ⟨v, hv⟩ := Option.isSome_iff_exists.1 hh
      exact ih _ (by simp) hpl i hs ⟨_, scalar_of_get hv (hs _ (Dict.mem_of_get? hv) (not_plain_join hpre el))⟩
        (fun n hn => h1 n (List.mem_cons_of_mem _ hn))
    · rename_i hh
      obtain ⟨x, hx⟩ : ∃ x, (st.newVar (joinU (pre ++ [el])) 1 1).scalar (joinU (pre ++ [el])) = .ok x :=
        ⟨_, scalar_of_get (by show Dict.get? (Dict.set _ _ _) _ = _; rw [Dict.get?_set, if_pos rfl]) ⟨rfl, rfl⟩⟩
      obtain ⟨a, ha⟩ := newVar_scalar (nm := joinU (pre ++ [el])) h0
      obtain ⟨b, hb⟩ := newVar_scalar (nm := joinU (pre ++ [el])) (h1 el (by simp))
      obtain ⟨i1, e1⟩ := newProduct i hpre (fun n hn => hpl n (List.mem_append_left _ hn)) (by simpa using hh) hx ha hb
      obtain ⟨st', q1, q2⟩ := ih _ (st := (st.newVar (joinU (pre ++ [el])) 1 1).subjectTo (.eq x (.mul a b))) (by simp) hpl i1 (e1.longScalar hs) ⟨x, hx⟩
        (fun n hn => e1.scalar_ok (h1 n (List.mem_cons_of_mem _ hn)))
      refine ⟨st', ?_, by rw [e]; exact q2⟩
      rw [Except.bind_ok_iff]; refine ⟨x, hx, ?_⟩
      rw [Except.bind_ok_iff]; refine ⟨a, ha, ?_⟩
      rw [Except.bind_ok_iff]; exact ⟨b, hb, q1⟩

theorem linMonomial_ok {l : List Name} {st : CaState} (hpl : ∀ n ∈ l, Plain n) (i : CaInv st) (hs : LongScalar st)
    (h : ∀ n ∈ l, ∃ x, st.scalar n = .ok x) : ∃ r, linMonomial l st = .ok r := by
  rw [linMonomial]
  split
  · exact ⟨_, rfl⟩
  · rename_i a rest hsort
    have hm : ∀ n ∈ a :: rest, n ∈ l := fun n hn => mem_sortNames.1 (by rw [hsort]; exact hn)
    obtain ⟨st', q1, x, q2⟩ := linLoop_ok rest [a] (by simp) (fun n hn => hpl n (hm n hn)) i hs
      (by rw [joinU_singleton]; exact h a (hm a (by simp))) (fun n hn => h n (hm n (by simp [hn])))
    refine ⟨(x, st'), ?_⟩
    rw [Except.bind_ok_iff]; refine ⟨st', q1, ?_⟩
    rw [Except.bind_ok_iff]; exact ⟨x, q2, rfl⟩

/-- every symbol of the monomial has its solver variable -/
def HasVar (st : CaState) (n : Name) : Prop :=
  if IsDual n then ∃ pre a b x, decodeDual n = .ok (pre, a, b) ∧ st.entry pre a b = .ok x else ∃ x, st.scalar n = .ok x

theorem CaExt.hasVar {st st' : CaState} (h : CaExt st st') {n : Name} (hn : HasVar st n) : HasVar st' n := by
  rw [HasVar] at *
  split
  · rename_i hd
    rw [if_pos hd] at hn
    obtain ⟨pre, a, b, x, h1, h2⟩ := hn
    refine ⟨pre, a, b, x, h1, ?_⟩
    rw [CaState.entry] at *
    split at h2
    · simp at h2
    · rename_i v hv
      rw [h.get_some hv]; exact h2
  · rename_i hd
    rw [if_neg hd] at hn
    exact h.scalar_ok hn

theorem dualMonomial_ok {parts : List Name} {idx : ℕ} {name : Name} {st : CaState} (hpl : ∀ n ∈ parts, Plain n) (i : CaInv st) (hs : LongScalar st)
    (hn : parts[idx]? = some name) (hd : IsDual name) (hrest : ∀ n ∈ parts.eraseIdx idx, ¬ IsDual n) (h : ∀ n ∈ parts, HasVar st n) :
    ∃ r, dualMonomial parts idx st = .ok r := by
  rw [dualMonomial, hn]
  simp only
  have h1 := h name (List.mem_of_getElem? hn)
  rw [HasVar, if_pos hd] at h1
  obtain ⟨pre, a, b, x, h2, h3⟩ := h1
  obtain ⟨r, hr⟩ := linMonomial_ok (fun n hn' => hpl n (List.mem_of_mem_eraseIdx hn')) i hs (l := parts.eraseIdx idx) fun n hn' => by
    have := h n (List.mem_of_mem_eraseIdx hn')
    rwa [HasVar, if_neg (hrest n hn')] at this
  refine ⟨(.mul x r.1, r.2), ?_⟩
  rw [Except.bind_ok_iff]; refine ⟨_, h2, ?_⟩
  rw [Except.bind_ok_iff]; refine ⟨_, h3, ?_⟩
  rw [Except.bind_ok_iff]; exact ⟨_, hr, rfl⟩

theorem lambMonomial_ok {parts : List Name} {st : CaState} (hpl : ∀ n ∈ parts, Plain n) (i : CaInv st) (hs : LongScalar st)
    (hc : parts.countP (fun n => decide (IsDual n)) ≤ 1) (h : ∀ n ∈ parts, HasVar st n) : ∃ r, lambMonomial parts st = .ok r := by
  obtain ⟨c1, c2, c3, c4⟩ := findDual_spec parts
  have hsum : ∀ l : List Name, l.countP (fun n => decide (IsDual n)) = l.countP isLamb + l.countP (fun n => !isLamb n && isNu n) := by
    intro l
    induction l with
    | nil => rfl
    | cons a l ih =>
      rw [List.countP_cons, List.countP_cons, List.countP_cons, ih]
      have : decide (IsDual a) = (isLamb a || isNu a) := by
        rw [Bool.eq_iff_iff, decide_eq_true_iff, Bool.or_eq_true]; rfl
      rw [this]
      cases isLamb a <;> cases isNu a <;> simp <;> omega
  have hnone : ∀ l : List Name, l.countP (fun n => decide (IsDual n)) = 0 → ∀ n ∈ l, ¬ IsDual n := by
    intro l h1 n hn
    rw [List.countP_eq_zero] at h1
    simpa using h1 n hn
  rw [lambMonomial]
  split
  · have hs1 := hsum parts
    rw [if_pos (by omega)]
    split
    · rename_i hl
      obtain ⟨n, hn, hlam⟩ := c3 hl
      have e1 := countP_eraseIdx (p := fun n => decide (IsDual n)) hn
      have hd : IsDual n := Or.inl hlam
      simp only [hd, decide_true, if_true] at e1
      exact dualMonomial_ok hpl i hs hn hd (hnone _ (by omega)) h
    · split
      · rename_i hnu
        obtain ⟨n, hn, hlam, hisnu⟩ := c4 hnu
        have e1 := countP_eraseIdx (p := fun n => decide (IsDual n)) hn
        have hd : IsDual n := Or.inr hisnu
        simp only [hd, decide_true, if_true] at e1
        exact dualMonomial_ok hpl i hs hn hd (hnone _ (by omega)) h
      · refine linMonomial_ok hpl i hs fun n hn => ?_
        have := h n hn
        rwa [HasVar, if_neg (hnone _ (by omega) n hn)] at this
  · exact ⟨_, rfl⟩

theorem lambTerms_ok : ∀ (ts : List PolyTerm) {acc : CExp} {st : CaState}, CaInv st → LongScalar st →
    (∀ t ∈ ts, (monoParts t).countP (fun n => decide (IsDual n)) ≤ 1 ∧ ∀ n ∈ monoParts t, HasVar st n) → ∃ r, lambTerms ts acc st = .ok r := by
  intro ts
  induction ts with
  | nil => intro acc st _ _ _; exact ⟨_, rfl⟩
  | cons t ts ih =>
    intro acc st i hs h
    obtain ⟨⟨y, st1⟩, hr⟩ := lambMonomial_ok (monoParts_plain t) i hs (h t (by simp)).1 (h t (by simp)).2
    obtain ⟨i1, e1, b1, v1⟩ := lambMonomial_spec (monoParts_plain t) i hr
    obtain ⟨r, hr'⟩ := ih (acc := .add acc (.mul (.num t.2) y)) i1 (e1.longScalar hs)
      fun u hu => ⟨(h u (by simp [hu])).1, fun n hn => e1.hasVar ((h u (by simp [hu])).2 n hn)⟩
    exact ⟨r, by rw [lambTerms, Except.bind_ok_iff]; exact ⟨_, hr, hr'⟩⟩

/-- the parts of the monomials of a polynomial are its symbols when these have no underscore -/
theorem monoParts_vars (hC : C.Lawful) {e : Sym} (hv : ∀ n ∈ e.vars, Plain n) {t : PolyTerm} (ht : t ∈ C.poly (C.simp e)) :
    ∀ n ∈ monoParts t, n ∈ e.vars := by
  intro n hn
  rw [monoParts, List.mem_flatMap] at hn
  obtain ⟨p, hp, hn⟩ := hn
  rw [List.mem_flatten] at hn
  obtain ⟨l, hl, hn⟩ := hn
  have hm := hC.simp_vars _ _ (hC.poly_vars _ t ht p hp)
  rw [(List.mem_replicate.1 hl).2, splitU_plain (hv _ hm), List.mem_singleton] at hn
  rw [hn]; exact hm

theorem exprsToCasadi_ok (hC : C.Lawful) : ∀ (es : List Sym) {st : CaState}, CaInv st → LongScalar st →
    (∀ e ∈ es, (∀ n ∈ e.vars, Plain n ∧ HasVar st n) ∧ ∀ t ∈ C.poly (C.simp e), (monoParts t).countP (fun n => decide (IsDual n)) ≤ 1) →
    ∃ r, exprsToCasadi C es st = .ok r := by
  intro es
  induction es with
  | nil => intro st _ _ _; exact ⟨_, rfl⟩
  | cons e es ih =>
    intro st i hs h
    obtain ⟨⟨y, st1⟩, hr⟩ : ∃ r, exprToCasadiLamb C e st = .ok r := by
      rw [exprToCasadiLamb]
      split
      · exact ⟨_, rfl⟩
      · have he := h e (by simp)
        exact lambTerms_ok _ i hs fun t ht => ⟨he.2 t ht, fun n hn => (he.1 n (monoParts_vars hC (fun m hm => (he.1 m hm).1) ht n hn)).2⟩
    obtain ⟨i1, e1, -, -⟩ := exprToCasadiLamb_spec hC i hr
    obtain ⟨⟨ys, st2⟩, hr'⟩ := ih i1 (e1.longScalar hs) fun u hu =>
      ⟨fun n hn => ⟨((h u (by simp [hu])).1 n hn).1, e1.hasVar ((h u (by simp [hu])).1 n hn).2⟩, (h u (by simp [hu])).2⟩
    refine ⟨(y :: ys, st2), ?_⟩
    rw [exprsToCasadi, Except.bind_ok_iff]; refine ⟨_, hr, ?_⟩
    rw [Except.bind_ok_iff]; exact ⟨_, hr', rfl⟩

theorem plainTerms_ok : ∀ (ts : List PolyTerm) {acc : CExp} {st : CaState}, CaInv st → LongScalar st →
    (∀ t ∈ ts, ∀ n ∈ monoParts t, ∃ x, st.scalar n = .ok x) → ∃ r, plainTerms ts acc st = .ok r := by
  intro ts
  induction ts with
  | nil => intro acc st _ _ _; exact ⟨_, rfl⟩
  | cons t ts ih =>
    intro acc st i hs h
    obtain ⟨⟨y, st1⟩, hr⟩ := linMonomial_ok (monoParts_plain t) i hs (h t (by simp))
    obtain ⟨i1, e1, b1, v1⟩ := linMonomial_spec (monoParts_plain t) i hr
    obtain ⟨r, hr'⟩ := ih (acc := .add acc (.mul (.num t.2) y)) i1 (e1.longScalar hs)
      fun u hu n hn => e1.scalar_ok (h u (by simp [hu]) n hn)
    exact ⟨r, by rw [plainTerms, Except.bind_ok_iff]; exact ⟨_, hr, hr'⟩⟩

end Verif
