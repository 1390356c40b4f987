import Verif.Proofs.Nlp
import Verif.Spec.Nlp
import Verif.Proofs.Dual
import Verif.Props.Bounds
import Verif.Props.Sdp

/-!
# Feasibility of the direct nonlinear program is equivalent to the dual system
-/

namespace Verif

variable {C : CAS}

theorem sat_subjectAll {st : CaState} {cs : List Constr} {σ} : (st.subjectAll cs).Sat σ ↔ st.Sat σ ∧ ∀ c ∈ cs, c.Holds σ := forall_mem_append'

theorem sat_subjectTo {st : CaState} {c : Constr} {σ} : (st.subjectTo c).Sat σ ↔ st.Sat σ ∧ c.Holds σ := by
  rw [show (st.subjectTo c).Sat σ ↔ ∀ d ∈ st.cons ++ [c], d.Holds σ from Iff.rfl, forall_mem_append']
  simp [CaState.Sat]

theorem sat_newVar {st : CaState} {n : Name} {a b : ℕ} {σ} : (st.newVar n a b).Sat σ ↔ st.Sat σ := Iff.rfl

/-- different names have different variables -/
def IdInj (st : CaState) : Prop := ∀ n m v w, st.vars.get? n = some v → st.vars.get? m = some w → v.id = w.id → n = m

theorem IdInj.newVar {st : CaState} (i : IdInj st) (g : st.Wf) (n : Name) (a b : ℕ) : IdInj (st.newVar n a b) := by
  intro k m v w hk hm hid
  rw [newVar_get] at hk hm
  split at hk <;> split at hm
  · simp [*]
  · injection hk with hk
    subst hk
    have := g.ids _ (Dict.mem_of_get? hm)
    simp only at hid this
    omega
  · injection hm with hm
    subst hm
    have := g.ids _ (Dict.mem_of_get? hk)
    simp only at hid this
    omega
  · exact i k m v w hk hm hid

/-- any values of the named variables are values of the decision variables -/
theorem IdInj.realize {st : CaState} (i : IdInj st) (val : Name → ℕ → ℕ → ℝ) : ∃ σ : ℕ → ℕ → ℕ → ℝ, ∀ n v, st.vars.get? n = some v → σ v.id = val n := by
  classical
  refine ⟨fun k => if hk : ∃ n v, st.vars.get? n = some v ∧ v.id = k then val hk.choose else fun _ _ => 0, fun n v hv => ?_⟩
  have hk : ∃ m w, st.vars.get? m = some w ∧ w.id = v.id := ⟨n, v, hv, rfl⟩
  simp only
  rw [dif_pos hk]
  obtain ⟨w, hw, hid⟩ := hk.choose_spec
  rw [i _ _ _ _ hw hv hid]

theorem value_of_get {st : CaState} {n : Name} {v : CaVar} (h : st.vars.get? n = some v) (σ) : st.value σ n = σ v.id 0 0 := by
  rw [CaState.value, h]

theorem value_congr_get {st st' : CaState} {n : Name} (h : st'.vars.get? n = st.vars.get? n) (σ) : st'.value σ n = st.value σ n := by
  rw [CaState.value, CaState.value, h]

/-- `n` is a scalar variable -/
def IsScalar (st : CaState) (n : Name) : Prop := ∃ v, st.vars.get? n = some v ∧ v.rows = 1 ∧ v.cols = 1

theorem inv_inj {a b : Name} (h : "inv" ++ a = "inv" ++ b) : a = b := by
  have := congrArg String.toList h
  rw [String.toList_append, String.toList_append] at this
  exact String.toList_inj.1 (List.append_cancel_left this)

theorem inv_ne (a : Name) : a ≠ "inv" ++ a := by
  intro h
  have := congrArg (fun s : String => s.toList.length) h
  simp only [String.toList_append, List.length_append] at this
  have h3 : ("inv" : String).toList.length = 3 := by decide
  omega

/-- the reciprocal constraints -/
theorem invLoop_sat : ∀ (l : List Name) {st st' : CaState}, l.Nodup → (∀ v ∈ l, ∀ w ∈ l, v ≠ "inv" ++ w) → Good st → (∀ n ∈ l, Plain n) → IdInj st →
    invLoop l st = .ok st' → IdInj st' ∧
      (∀ σ, st'.Sat σ ↔ st.Sat σ ∧ ∀ n ∈ l, st'.value σ n * st'.value σ ("inv" ++ n) = 1 ∧ 1 / 10000000 ≤ st'.value σ n) ∧
      (∀ m, m ∉ l → (∀ n ∈ l, m ≠ "inv" ++ n) → st'.vars.get? m = st.vars.get? m) ∧
      (∀ n ∈ l, IsScalar st' n ∧ IsScalar st' ("inv" ++ n)) := by
  intro l
  induction l with
  | nil =>
    intro st st' _ _ _ _ i h
    rw [invLoop] at h
    injection h with h
    subst h
    exact ⟨i, fun σ => by simp, fun _ _ _ => rfl, by simp⟩
  | cons n l ih =>
    intro st st' hnd hne g hp i h
    rw [invLoop] at h
    obtain ⟨st1, h1, h⟩ := Except.bind_ok_iff.1 h
    have g1 : Good st1 := invLoop_good [n] (fun m hm => hp m (by simp at hm; simp [hm])) g (by rw [invLoop, h1]; rfl)
    rw [invStep] at h1
    obtain ⟨v, hv, h1⟩ := Except.bind_ok_iff.1 h1
    obtain ⟨iv, hiv, h1⟩ := Except.bind_ok_iff.1 h1
    injection h1 with h1
    have hget : ∀ m, st1.vars.get? m = if m = "inv" ++ n then some ⟨st.sizes.length + 1, 1, 1⟩ else if m = n then some ⟨st.sizes.length, 1, 1⟩ else st.vars.get? m := by
      intro m
      rw [← h1]
      show ((st.newVar n 1 1).newVar ("inv" ++ n) 1 1).vars.get? m = _
      rw [newVar_get, newVar_get]
      simp [CaState.newVar]
    have i1 : IdInj st1 := by
      have := (i.newVar g.wf n 1 1).newVar (g.newVar (hp n (by simp)) 1 1).wf ("inv" ++ n) 1 1
      rw [← h1]
      exact this
    obtain ⟨i2, s2, k2, c2⟩ := ih (List.nodup_cons.1 hnd).2 (fun v hv w hw => hne v (by simp [hv]) w (by simp [hw])) g1 (fun m hm => hp m (by simp [hm])) i1 h
    have hnl : n ∉ l := (List.nodup_cons.1 hnd).1
    have kn : st'.vars.get? n = st1.vars.get? n := k2 n hnl fun w hw => hne n (by simp) w (by simp [hw])
    have kin : st'.vars.get? ("inv" ++ n) = st1.vars.get? ("inv" ++ n) := by
      refine k2 _ (fun hh => hne _ (by simp [hh]) n (by simp) rfl) fun w hw he => ?_
      have := inv_inj he
      subst this
      exact hnl hw
    have gn : st1.vars.get? n = some ⟨st.sizes.length, 1, 1⟩ := by rw [hget, if_neg (inv_ne n), if_pos rfl]
    have gin : st1.vars.get? ("inv" ++ n) = some ⟨st.sizes.length + 1, 1, 1⟩ := by rw [hget, if_pos rfl]
    refine ⟨i2, fun σ => ?_, fun m hm hm' => ?_, ?_⟩
    · have hs1 : st1.Sat σ ↔ st.Sat σ ∧ st'.value σ n * st'.value σ ("inv" ++ n) = 1 ∧ 1 / 10000000 ≤ st'.value σ n := by
        rw [← h1, sat_subjectTo, sat_subjectTo, sat_newVar, sat_newVar]
        obtain ⟨w, hw, rfl⟩ := scalar_inv hv
        obtain ⟨w', hw', rfl⟩ := scalar_inv hiv
        have e1 : w = ⟨st.sizes.length, 1, 1⟩ := by
          rw [newVar_get, if_neg (inv_ne n), newVar_get, if_pos rfl] at hw
          injection hw with hw
          exact hw.symm
        have e2 : w' = ⟨st.sizes.length + 1, 1, 1⟩ := by
          rw [newVar_get, if_pos rfl] at hw'
          injection hw' with hw'
          rw [← hw']; simp [CaState.newVar]
        subst e1 e2
        rw [value_of_get (kn.trans gn), value_of_get (kin.trans gin), and_assoc]
        simp [Constr.Holds, CExp.eval]
      rw [s2, hs1, and_assoc]
      simp
    · rw [List.mem_cons, not_or] at hm
      rw [k2 m hm.2 fun w hw => hm' w (by simp [hw]), hget, if_neg (hm' n (by simp)), if_neg hm.1]
    · intro m hm
      rcases List.mem_cons.1 hm with rfl | hm
      · exact ⟨⟨_, kn.trans gn, rfl, rfl⟩, ⟨_, kin.trans gin, rfl, rfl⟩⟩
      · exact c2 m hm

theorem addParams_spec : ∀ (params : List Name) {st : CaState}, (∀ n ∈ params, Plain n) → Good st → IdInj st →
    IdInj (addParams params st) ∧ (∀ σ, (addParams params st).Sat σ ↔ st.Sat σ) ∧
      (∀ m v, st.vars.get? m = some v → (addParams params st).vars.get? m = some v) ∧
      (∀ m ∉ params, (addParams params st).vars.get? m = st.vars.get? m) ∧
      (∀ m ∈ params, IsScalar st m ∨ st.vars.get? m = none → IsScalar (addParams params st) m) := by
  intro params
  induction params with
  | nil => intro st _ _ i; exact ⟨i, fun _ => Iff.rfl, fun _ _ h => h, fun _ _ => rfl, by simp⟩
  | cons n l ih =>
    intro st hp g i
    have hstep : addParams (n :: l) st = addParams l (if st.vars.has n then st else st.newVar n 1 1) := rfl
    have g1 : Good (if st.vars.has n then st else st.newVar n 1 1) := by
      split
      · exact g
      · exact g.newVar (hp n (by simp)) 1 1
    have i1 : IdInj (if st.vars.has n then st else st.newVar n 1 1) := by
      split
      · exact i
      · exact i.newVar g.wf n 1 1
    have hmono : ∀ m v, st.vars.get? m = some v → (if st.vars.has n then st else st.newVar n 1 1).vars.get? m = some v := by
      intro m v hv
      split
      · exact hv
      · rename_i hh
        rw [newVar_get, if_neg, hv]
        rintro rfl
        rw [Dict.has, hv] at hh
        exact hh rfl
    have hn : IsScalar st n ∨ st.vars.get? n = none → IsScalar (if st.vars.has n then st else st.newVar n 1 1) n := by
      rintro (⟨v, hv, h1⟩ | hh)
      · exact ⟨v, hmono n v hv, h1⟩
      · rw [Dict.has, hh]
        exact ⟨⟨st.sizes.length, 1, 1⟩, by simp [newVar_get], rfl, rfl⟩
    obtain ⟨i2, s2, m2, n2, c2⟩ := ih (fun m hm => hp m (by simp [hm])) g1 i1
    rw [hstep]
    refine ⟨i2, fun σ => ?_, fun m v hv => m2 m v (hmono m v hv), fun m hm => ?_, fun m hm hs => ?_⟩
    · rw [s2]; split <;> rfl
    · rw [List.mem_cons, not_or] at hm
      rw [n2 m hm.2]
      split
      · rfl
      · rw [newVar_get, if_neg hm.1]
    · by_cases hmn : m = n
      · subst hmn
        obtain ⟨v, hv, h1⟩ := hn hs
        exact ⟨v, m2 m v hv, h1⟩
      · refine c2 m (by simpa [hmn] using hm) ?_
        rcases hs with ⟨v, hv, h1⟩ | hh
        · exact Or.inl ⟨v, hmono m v hv, h1⟩
        · right
          split
          · exact hh
          · rw [newVar_get, if_neg hmn, hh]

theorem nonneg_holds {v : CaVar} {σ : ℕ → ℕ → ℕ → ℝ} : (∀ c ∈ nonneg v, c.Holds σ) ↔ ∀ a < v.rows, ∀ b < v.cols, 0 ≤ σ v.id a b := by
  simp only [nonneg, CaVar.entries, List.forall_mem_map, List.forall_mem_flatMap, List.mem_range]
  simp [Constr.Holds, CExp.eval]

theorem fnDuals_sat : ∀ (ns : List ℕ) (k : ℕ) {st : CaState}, Good st → IdInj st → IdInj (fnDuals ns k st) ∧
    ∀ σ, (fnDuals ns k st).Sat σ ↔ st.Sat σ ∧ ∀ (idx n : ℕ), ns[idx]? = some n → ∀ v, (fnDuals ns k st).vars.get? (lambVar (k + idx)) = some v →
      ∀ a < n, ∀ b < n, 0 ≤ σ v.id a b := by
  intro ns
  induction ns with
  | nil => intro k st _ i; exact ⟨i, fun σ => by simp [fnDuals]⟩
  | cons n ns ih =>
    intro k st g i
    obtain ⟨g1, ⟨v0, hv0, -⟩⟩ := g.newNonneg (lambVar_plain k) n n
    have i1 : IdInj ((st.newVar (lambVar k) n n).subjectAll (nonneg ⟨st.sizes.length, n, n⟩)) := i.newVar g.wf _ _ _
    obtain ⟨i2, s2⟩ := ih (k + 1) g1 i1
    obtain ⟨-, k2, -⟩ := fnDuals_spec ns (k + 1) g1
    refine ⟨i2, fun σ => ?_⟩
    rw [fnDuals, s2 σ, sat_subjectAll, sat_newVar, nonneg_holds, and_assoc]
    refine and_congr_right fun _ => ?_
    have hk : (fnDuals ns (k + 1) ((st.newVar (lambVar k) n n).subjectAll (nonneg ⟨st.sizes.length, n, n⟩))).vars.get? (lambVar k) = some ⟨st.sizes.length, n, n⟩ := by
      rw [k2.get _ fun j hj hh => by have := lambVar_inj hh; omega]
      show (st.newVar (lambVar k) n n).vars.get? _ = _
      rw [newVar_get, if_pos rfl]
    constructor
    · rintro ⟨h1, h2⟩ idx m hm v hv
      cases idx with
      | zero =>
        injection hm with hm
        subst hm
        rw [show k + 0 = k from rfl] at hv
        rw [hk] at hv
        injection hv with hv
        subst hv
        exact h1
      | succ idx => exact h2 idx m hm v (by rw [show k + 1 + idx = k + (idx + 1) by omega]; exact hv)
    · intro hh
      exact ⟨hh 0 n rfl _ hk, fun idx m hm v hv => hh (idx + 1) m hm v (by rw [show k + (idx + 1) = k + 1 + idx by omega]; exact hv)⟩

theorem extraDuals_sat (nI nE : ℕ) {st : CaState} (g : Good st) (i : IdInj st) : IdInj (extraDuals nI nE st) ∧
    (∀ m, m ≠ "lamb0" → m ≠ "nu0" → (extraDuals nI nE st).vars.get? m = st.vars.get? m) ∧
    (1 ≤ nE → ∃ v, (extraDuals nI nE st).vars.get? "nu0" = some v ∧ v.rows = nE ∧ v.cols = 1) ∧
    ∀ σ, (extraDuals nI nE st).Sat σ ↔ st.Sat σ ∧ (1 ≤ nI → ∀ v, (extraDuals nI nE st).vars.get? "lamb0" = some v → ∀ a < nI, 0 ≤ σ v.id a 0) := by
  have hl : Plain "lamb0" := by decide +kernel
  have hne : ("lamb0" : Name) ≠ "nu0" := by decide +kernel
  rw [extraDuals]
  by_cases h1 : nI ≥ 1
  · have g1 := (g.newNonneg hl nI 1).1
    have i1 : IdInj ((st.newVar "lamb0" nI 1).subjectAll (nonneg ⟨st.sizes.length, nI, 1⟩)) := i.newVar g.wf _ _ _
    have hget : ∀ m, ((st.newVar "lamb0" nI 1).subjectAll (nonneg ⟨st.sizes.length, nI, 1⟩)).vars.get? m =
        if m = "lamb0" then some ⟨st.sizes.length, nI, 1⟩ else st.vars.get? m := fun m => newVar_get ..
    have hsat : ∀ σ, ((st.newVar "lamb0" nI 1).subjectAll (nonneg ⟨st.sizes.length, nI, 1⟩)).Sat σ ↔ st.Sat σ ∧ ∀ a < nI, 0 ≤ σ st.sizes.length a 0 := by
      intro σ
      rw [sat_subjectAll, sat_newVar, nonneg_holds]
      refine and_congr_right fun _ => ?_
      simp
    simp only [if_pos h1]
    by_cases h2 : nE ≥ 1
    · simp only [if_pos h2]
      refine ⟨i1.newVar g1.wf _ _ _, fun m hm hm' => ?_, fun _ => ⟨_, by rw [newVar_get, if_pos rfl], rfl, rfl⟩, fun σ => ?_⟩
      · rw [newVar_get, if_neg hm', hget, if_neg hm]
      · rw [sat_newVar, hsat]
        refine and_congr_right fun _ => ?_
        rw [newVar_get, if_neg hne, hget, if_pos rfl]
        simp only [Option.some.injEq, forall_eq']
        exact ⟨fun h _ => h, fun h => h h1⟩
    · simp only [if_neg h2]
      refine ⟨i1, fun m hm hm' => ?_, fun h => absurd h h2, fun σ => ?_⟩
      · rw [hget, if_neg hm]
      · rw [hsat]
        refine and_congr_right fun _ => ?_
        rw [hget, if_pos rfl]
        simp only [Option.some.injEq, forall_eq']
        exact ⟨fun h _ => h, fun h => h h1⟩
  · simp only [if_neg h1]
    by_cases h2 : nE ≥ 1
    · simp only [if_pos h2]
      refine ⟨i.newVar g.wf _ _ _, fun m hm hm' => ?_, fun _ => ⟨_, by rw [newVar_get, if_pos rfl], rfl, rfl⟩, fun σ => ?_⟩
      · rw [newVar_get, if_neg hm']
      · rw [sat_newVar]
        exact ⟨fun h => ⟨h, fun h' => absurd h' h1⟩, fun h => h.1⟩
    · simp only [if_neg h2]
      exact ⟨i, fun _ _ _ => by trivial, fun h => absurd h h2, fun σ => ⟨fun h => ⟨h, fun h' => absurd h' h1⟩, fun h => h.1⟩⟩


/-! ### The last part of the construction -/

section finish

variable {sm : SymMats} {cons : List (ExId × Kind)} {ns : List ℕ} {dimG dimF : ℕ} {params : List Name} {bounds : List Bound} {init : List Name} {goal : Sym}
  {nlp : Nlp} {st : CaState} {pid : ℕ}

theorem symVal_congr {σ σ' : ℕ → ℕ → ℕ → ℝ} (w : st.Wf) (h : ∀ v < st.sizes.length, ∀ a b, σ' v a b = σ v a b) (n : Name) : st.symVal σ' n = st.symVal σ n := by
  have hv : ∀ m v, st.vars.get? m = some v → ∀ a b, σ' v.id a b = σ v.id a b := fun m v hm => h _ (w.ids _ (Dict.mem_of_get? hm))
  rw [CaState.symVal, CaState.symVal]
  split
  · split
    · split
      · rename_i v hm; exact hv _ v hm _ _
      · rfl
    · rfl
  · rw [CaState.value, CaState.value]
    split
    · rename_i v hm; exact hv _ v hm _ _
    · rfl

theorem value_congr {σ σ' : ℕ → ℕ → ℕ → ℝ} (w : st.Wf) (h : ∀ v < st.sizes.length, ∀ a b, σ' v a b = σ v a b) (n : Name) : st.value σ' n = st.value σ n := by
  rw [CaState.value, CaState.value]
  split
  · rename_i v hm; exact h _ (w.ids _ (Dict.mem_of_get? hm)) _ _
  · rfl

/-- the dual equations at the values of the variables -/
def EqsAt (sm : SymMats) (dimG dimF pid : ℕ) (st : CaState) (σ : ℕ → ℕ → ℕ → ℝ) : Prop :=
  (∀ k < dimF, sm.dualF (st.value σ) (fun key => st.symVal σ key.name) k - sm.objF (st.value σ) k = 0) ∧
  ∀ i < dimG, ∀ j < dimG, sm.dualG (st.value σ) (fun key => st.symVal σ key.name) i j - sm.objG (st.value σ) i j =
    ∑ k ∈ Finset.range dimG, lowerOf σ pid i k * lowerOf σ pid j k

theorem finish_z (hC : C.Lawful) (hn : (Dict.keys sm.spExp).Nodup) {ents : List (SpKey × FG)} {obj : FG} (hs : sm.spExp = ents ++ [(SpKey.obj, obj)])
    (hext : SumExt FG.zero ents sm.sum) (hocc : ∀ en ∈ sm.spExp, ∀ n, en.2.Occurs n → n ∈ params) (hpl : ∀ n ∈ params, Plain n)
    (hnd : ∀ n ∈ params, ¬ IsDual n) (st : CaState) (σ : ℕ → ℕ → ℕ → ℝ) :
    (∀ k, ((simplifyMatrix C (sm.sum.sub obj)).F k).eval (longEnv (st.symVal σ)) =
      sm.dualF (st.value σ) (fun key => st.symVal σ key.name) k - sm.objF (st.value σ) k) ∧
    ∀ i j, ((simplifyMatrix C (sm.sum.sub obj)).G i j).eval (longEnv (st.symVal σ)) =
      sm.dualG (st.value σ) (fun key => st.symVal σ key.name) i j - sm.objG (st.value σ) i j := by
  obtain ⟨hfil, hget⟩ := DualFeasible.split hs hn
  have hpar : ∀ n ∈ params, longEnv (st.symVal σ) n = st.value σ n := fun n hp => by rw [longEnv_plain (hpl n hp), CaState.symVal, if_neg (hnd n hp)]
  have hmF : ∀ en ∈ sm.spExp, ∀ k, (en.2.F k).eval (longEnv (st.symVal σ)) = (en.2.F k).eval (st.value σ) := fun en hen k =>
    Sym.eval_congr _ fun n hnn => hpar n (hocc en hen n (Or.inl ⟨k, hnn⟩))
  have hmG : ∀ en ∈ sm.spExp, ∀ i j, (en.2.G i j).eval (longEnv (st.symVal σ)) = (en.2.G i j).eval (st.value σ) := fun en hen i j =>
    Sym.eval_congr _ fun n hnn => hpar n (hocc en hen n (Or.inr ⟨i, j, hnn⟩))
  have hmem : ∀ en ∈ ents, en ∈ sm.spExp := fun en hen => by rw [hs]; exact List.mem_append_left _ hen
  have hobjm : (SpKey.obj, obj) ∈ sm.spExp := by rw [hs]; simp
  have hname : ∀ en ∈ ents, longEnv (st.symVal σ) en.1.name = st.symVal σ en.1.name := by
    intro en hen
    have hne : en.1 ≠ .obj := by
      rw [← hfil, List.mem_filter] at hen
      simpa using hen.2
    cases hen' : en.1 with
    | obj => exact absurd hen' hne
    | tup a k i j => exact longEnv_plain SpKey.name_plain
  constructor
  · intro k
    rw [simplifyMatrix]
    simp only
    rw [linearize_eval hC]
    simp only [FG.sub, Sym.eval_sub]
    rw [(hext _).1, hmF _ hobjm, SymMats.dualF, hfil, SymMats.objF, hget]
    simp only [FG.zero, Sym.eval_num, Rat.cast_zero, zero_add]
    congr 2
    exact List.map_congr_left fun en hen => by rw [hname en hen, hmF en (hmem en hen)]
  · intro i j
    rw [simplifyMatrix]
    simp only
    rw [linearize_eval hC]
    simp only [FG.sub, Sym.eval_sub]
    rw [(hext _).2, hmG _ hobjm, SymMats.dualG, hfil, SymMats.objG, hget]
    simp only [FG.zero, Sym.eval_num, Rat.cast_zero, zero_add]
    congr 2
    exact List.map_congr_left fun en hen => by rw [hname en hen, hmG en (hmem en hen)]

theorem finish_iff (hC : C.Lawful) (g : Good st) (hpid : pid < st.sizes.length) (h : ipoptFinish C sm dimG dimF pid init goal st = .ok nlp)
    (hn : (Dict.keys sm.spExp).Nodup) (hsum : ∃ ents obj, sm.spExp = ents ++ [(SpKey.obj, obj)] ∧ SumExt FG.zero ents sm.sum)
    (hocc : ∀ en ∈ sm.spExp, ∀ n, en.2.Occurs n → n ∈ params) (hpl : ∀ n ∈ params, Plain n) (hnd : ∀ n ∈ params, ¬ IsDual n) :
    (∀ σ, nlp.state.Sat σ → st.Sat σ ∧ EqsAt sm dimG dimF pid st σ) ∧
    (∀ σ, st.Sat σ → EqsAt sm dimG dimF pid st σ → ∃ σ', (∀ v < st.sizes.length, ∀ a b, σ' v a b = σ v a b) ∧ nlp.state.Sat σ') ∧
    ∀ n, Plain n → nlp.state.vars.get? n = st.vars.get? n := by
  obtain ⟨ents, obj, hs, hext⟩ := hsum
  obtain ⟨hfil, hget⟩ := DualFeasible.split hs hn
  have hz := fun σ => finish_z hC hn hs hext hocc hpl hnd st σ
  rw [ipoptFinish, hget] at h
  obtain ⟨obj', hobj', h⟩ := Except.bind_ok_iff.1 h
  injection hobj' with hobj'
  subst hobj'
  obtain ⟨⟨xs1, st1⟩, h1, h⟩ := Except.bind_ok_iff.1 h
  obtain ⟨⟨xs2, st2⟩, h2, h⟩ := Except.bind_ok_iff.1 h
  simp only at h h2
  split at h
  swap
  · simp at h
  obtain ⟨⟨o, st5⟩, h5, h⟩ := Except.bind_ok_iff.1 h
  injection h with h
  subst h
  simp only
  have i0 := CaInv.of_plain g.wf g.plain
  obtain ⟨i1, e1, b1, v1⟩ := exprsToCasadi_spec hC _ i0 h1
  obtain ⟨i2, e2, b2, v2⟩ := exprsToCasadi_spec hC _ i1 h2
  have i3 := i2.subjectAll (cs := xs1.map fun x => .eq x (.num 0)) (by
    intro c hc
    obtain ⟨x, hx, rfl⟩ := List.mem_map.1 hc
    exact ⟨(b1 x hx).mono e2.sizes.length_le, trivial⟩)
  have i4 := i3.subjectAll (cs := xs2.zipIdx.map fun xi =>
      .eq (.add xi.1 (.mul (.num (-1)) (pptEntry pid dimG (xi.2 / dimG) (xi.2 % dimG)))) (.num 0)) (by
    intro c hc
    obtain ⟨⟨x, i⟩, hx, rfl⟩ := List.mem_map.1 hc
    have hx' := List.fst_mem_of_mem_zipIdx hx
    exact ⟨⟨b2 x hx', trivial, pptEntry_below (lt_of_lt_of_le hpid (e1.sizes.length_le.trans e2.sizes.length_le)) _ _ _⟩, trivial⟩)
  obtain ⟨i5, e5, -, v5⟩ := exprToCasadi_spec hC i4 h5
  have hs2 : ∀ σ, st2.Sat σ → (∀ e : Sym, e.eval (longEnv (st1.symVal σ)) = e.eval (longEnv (st.symVal σ))) := fun σ _ e =>
    Sym.eval_congr _ fun n _ => e1.longSym σ n
  refine ⟨fun σ hσ => ?_, fun σ hσ heq => ?_, fun n hp => ?_⟩
  · have s4 := e5.sat hσ
    have s2 : st2.Sat σ := fun c hc => s4 c (List.mem_append_left _ (List.mem_append_left _ hc))
    have s1 := e2.sat s2
    refine ⟨e1.sat s1, fun k hk => ?_, fun i hi j hj => ?_⟩
    · rw [← (hz σ).1]
      have := congrArg (fun l => l[k]?) (v1 σ s1)
      simp only [List.getElem?_map, FG.flatF, List.getElem?_range, hk, Option.map_some] at this
      obtain ⟨x, hx, hx'⟩ := Option.map_eq_some_iff.1 this
      rw [← hx']
      have hc := s4 (.eq x (.num 0)) (List.mem_append_left _ (List.mem_append_right _ (List.mem_map_of_mem (List.mem_of_getElem? hx))))
      simpa [Constr.Holds, CExp.eval] using hc
    · rw [← (hz σ).2]
      have hlt : i * dimG + j < dimG * dimG := by
        calc i * dimG + j < i * dimG + dimG := by omega
          _ = (i + 1) * dimG := by ring
          _ ≤ dimG * dimG := Nat.mul_le_mul_right _ (by omega)
      have hdiv : (i * dimG + j) / dimG = i := by
        rw [Nat.add_comm, Nat.add_mul_div_right _ _ (by omega), Nat.div_eq_of_lt hj, Nat.zero_add]
      have hmod : (i * dimG + j) % dimG = j := by rw [Nat.mul_add_mod', Nat.mod_eq_of_lt hj]
      have := congrArg (fun l => l[i * dimG + j]?) (v2 σ s2)
      simp only [List.getElem?_map, FG.flatG, List.getElem?_range, hlt, Option.map_some, hdiv, hmod] at this
      obtain ⟨x, hx, hx'⟩ := Option.map_eq_some_iff.1 this
      have hc := s4 (.eq (.add x (.mul (.num (-1)) (pptEntry pid dimG i j))) (.num 0)) (by
        refine List.mem_append_right _ (List.mem_map.2 ⟨(x, i * dimG + j), ?_, ?_⟩)
        · exact List.mem_zipIdx_iff_getElem?.2 hx
        · simp only [hdiv, hmod])
      simp only [Constr.Holds, CExp.eval, eval_pptEntry] at hc
      push_cast at hc
      rw [← hs2 σ s2, ← hx']
      linarith
  · obtain ⟨σ1, a1, s1⟩ := e1.ext σ hσ
    obtain ⟨σ2, a2, s2⟩ := e2.ext σ1 s1
    have a2' : ∀ v < st.sizes.length, ∀ a b, σ2 v a b = σ v a b := fun v hv a b => by
      rw [a2 v (lt_of_lt_of_le hv e1.sizes.length_le), a1 v hv]
    have s12 := e2.sat s2
    have hsy : ∀ n, st.symVal σ2 n = st.symVal σ n := symVal_congr g.wf a2'
    have hzz : ∀ e : Sym, e.eval (longEnv (st.symVal σ2)) = e.eval (longEnv (st.symVal σ)) := fun e =>
      Sym.eval_congr _ fun n _ => longEnv_congr (fun m _ => hsy m) n
    have s4 : ((st2.subjectAll (xs1.map fun x => .eq x (.num 0))).subjectAll (xs2.zipIdx.map fun xi =>
        .eq (.add xi.1 (.mul (.num (-1)) (pptEntry pid dimG (xi.2 / dimG) (xi.2 % dimG)))) (.num 0))).Sat σ2 := by
      rw [sat_subjectAll, sat_subjectAll]
      refine ⟨⟨s2, ?_⟩, ?_⟩
      · intro c hc
        obtain ⟨x, hx, rfl⟩ := List.mem_map.1 hc
        have hm : x.eval σ2 ∈ xs1.map (CExp.eval σ2) := List.mem_map_of_mem hx
        rw [v1 σ2 s12] at hm
        obtain ⟨e, he, hx'⟩ := List.mem_map.1 hm
        rw [FG.flatF, List.mem_map] at he
        obtain ⟨k, hk, rfl⟩ := he
        show x.eval σ2 = _
        rw [← hx', hzz, (hz σ).1, heq.1 k (List.mem_range.1 hk)]
        simp [CExp.eval]
      · intro c hc
        obtain ⟨⟨x, i⟩, hx, rfl⟩ := List.mem_map.1 hc
        have hx := List.mem_zipIdx_iff_getElem?.1 hx
        simp only at hx ⊢
        have hm := congrArg (fun l => l[i]?) (v2 σ2 s2)
        simp only [List.getElem?_map, hx, Option.map_some, FG.flatG] at hm
        have hi : i < dimG * dimG := by
          by_contra hh
          rw [List.getElem?_eq_none (by simpa using hh)] at hm
          cases hm
        rw [List.getElem?_range hi] at hm
        simp only [Option.map_some, Option.some.injEq] at hm
        have hpos : 0 < dimG := by
          rcases Nat.eq_zero_or_pos dimG with h0 | h0
          · rw [h0] at hi; omega
          · exact h0
        show (_ : ℝ) = _
        simp only [CExp.eval, eval_pptEntry]
        rw [hm, hs2 σ2 s2, hzz, (hz σ).2, heq.2 _ (Nat.div_lt_of_lt_mul hi) _ (Nat.mod_lt _ hpos)]
        have hlo : ∀ i k, lowerOf σ2 pid i k = lowerOf σ pid i k := fun i k => by rw [lowerOf, lowerOf, a2' pid hpid]
        simp only [hlo]
        push_cast
        ring
    obtain ⟨σ5, a5, s5⟩ := e5.ext σ2 s4
    refine ⟨σ5, fun v hv a b => ?_, s5⟩
    rw [a5 v (lt_of_lt_of_le hv (e1.sizes.length_le.trans e2.sizes.length_le)), a2' v hv]
  · rw [e5.get_plain hp]
    exact (e1.trans e2).get_plain hp

end finish


/-! ### The state before the dual equations -/

theorem inv_toList (v : Name) : ("inv" ++ v).toList = 'i' :: 'n' :: 'v' :: v.toList := by
  rw [String.toList_append]
  have : ("inv" : String).toList = ['i', 'n', 'v'] := by decide
  rw [this]; rfl

theorem SimpleParams.mem_inv {params : List Name} (s : SimpleParams params) {v : Name} (hv : v ∈ invParams params) :
    "inv" ++ v ∈ params ∧ ¬ ['i', 'n', 'v'] <:+: v.toList := by
  rw [invParams, List.mem_map] at hv
  obtain ⟨n, hn, rfl⟩ := hv
  obtain ⟨hn, hi⟩ := List.mem_filter.1 hn
  obtain ⟨w, rfl, hw⟩ := s.inv n hn (by simpa using hi)
  have : String.ofList (("inv" ++ w).toList.drop 3) = w := by
    rw [inv_toList, ← String.toList_inj, String.toList_ofList]; rfl
  rw [this]
  exact ⟨hn, hw⟩

theorem SimpleParams.inv_ne {params : List Name} (s : SimpleParams params) {v w : Name} (hv : v ∈ invParams params) : v ≠ "inv" ++ w := by
  rintro rfl
  exact (s.mem_inv hv).2 ⟨[], w.toList, by rw [inv_toList]; rfl⟩

theorem SimpleParams.inv_nodup {params : List Name} (s : SimpleParams params) : (invParams params).Nodup := by
  rw [invParams]
  refine List.Nodup.map_on ?_ (s.nodup.filter _)
  intro a ha b hb hab
  obtain ⟨ha, hia⟩ := List.mem_filter.1 ha
  obtain ⟨hb, hib⟩ := List.mem_filter.1 hb
  obtain ⟨v, rfl, -⟩ := s.inv a ha (by simpa using hia)
  obtain ⟨w, rfl, -⟩ := s.inv b hb (by simpa using hib)
  have h2 := congrArg String.toList hab
  rw [String.toList_ofList, String.toList_ofList, inv_toList, inv_toList] at h2
  have : v = w := String.toList_inj.1 h2
  rw [this]

theorem init_scalars : ∀ (l : List Name) {st : CaState}, (∀ n ∈ l, Plain n) → Good st → IdInj st →
    Good (l.foldl (fun (st : CaState) n => st.newVar n 1 1) st) ∧ IdInj (l.foldl (fun (st : CaState) n => st.newVar n 1 1) st) ∧
      (l.foldl (fun (st : CaState) n => st.newVar n 1 1) st).cons = st.cons ∧
      (∀ n ∈ l, IsScalar (l.foldl (fun (st : CaState) n => st.newVar n 1 1) st) n) ∧
      ∀ n ∉ l, (l.foldl (fun (st : CaState) n => st.newVar n 1 1) st).vars.get? n = st.vars.get? n := by
  intro l
  induction l with
  | nil => intro st _ g i; exact ⟨g, i, rfl, by simp, fun _ _ => rfl⟩
  | cons a l ih =>
    intro st hp g i
    obtain ⟨g1, i1, c1, s1, k1⟩ := ih (fun n hn => hp n (by simp [hn])) (g.newVar (hp a (by simp)) 1 1) (i.newVar g.wf a 1 1)
    rw [List.foldl_cons]
    refine ⟨g1, i1, c1, fun n hn => ?_, fun n hn => ?_⟩
    · by_cases hnl : n ∈ l
      · exact s1 n hnl
      · have : n = a := by simpa [hnl] using hn
        subst this
        exact ⟨_, by rw [k1 _ hnl, newVar_get, if_pos rfl], rfl, rfl⟩
    · rw [List.mem_cons, not_or] at hn
      rw [k1 n hn.2, newVar_get, if_neg hn.1]

theorem ipoptInit_spec (dimG : ℕ) : IdInj (ipoptInit dimG) ∧ (∀ σ, (ipoptInit dimG).Sat σ) ∧ (∀ n ∈ baseNames, IsScalar (ipoptInit dimG) n) ∧
    (∃ pid, (ipoptInit dimG).vars.get? "P" = some ⟨pid, dimG, dimG⟩) ∧ ∀ n, n ∉ baseNames → n ≠ "P" → (ipoptInit dimG).vars.get? n = none := by
  have g0 : Good ⟨[], [], []⟩ := ⟨⟨by simp [Dict.NodupKeys], by simp, by simp⟩, by intro n hn; simp at hn⟩
  have i0 : IdInj ⟨[], [], []⟩ := by intro n m v w h; cases h
  obtain ⟨g1, i1, c1, s1, k1⟩ := init_scalars baseNames (by decide +kernel) g0 i0
  have hget := newVar_get (baseNames.foldl (fun (st : CaState) n => st.newVar n 1 1) ⟨[], [], []⟩) "P" (a := dimG) (b := dimG)
  have hP : "P" ∉ baseNames := by decide
  refine ⟨i1.newVar g1.wf _ _ _, ?_, fun n hn => ?_, ?_, fun n hn hne => ?_⟩
  · intro σ c hc
    have : c ∈ (baseNames.foldl (fun (st : CaState) n => st.newVar n 1 1) ⟨[], [], []⟩).cons := hc
    rw [c1] at this
    cases this
  · obtain ⟨v, hv, h1⟩ := s1 n hn
    refine ⟨v, ?_, h1⟩
    refine (hget n).trans ?_
    rw [if_neg (by rintro rfl; exact hP hn), hv]
  · exact ⟨_, (hget "P").trans (if_pos rfl)⟩
  · refine (hget n).trans ?_
    rw [if_neg hne, k1 n hn]
    rfl

theorem scalar_entries {st : CaState} {n : Name} {v : CaVar} (hv : st.vars.get? n = some v) (h : v.rows = 1 ∧ v.cols = 1) (σ) :
    v.entries = [.var v.id 0 0] ∧ (CExp.var v.id 0 0).eval σ = st.value σ n := by
  refine ⟨?_, (value_of_get hv σ).symm⟩
  rw [CaVar.entries, h.1, h.2]
  rfl

variable {sm : SymMats} {cons : List (ExId × Kind)} {ns : List ℕ} {dimG dimF : ℕ} {params : List Name} {bounds : List Bound} {init : List Name} {goal : Sym}
  {nlp : Nlp}

/-- everything about the state before the dual equations -/
structure Pre (cons : List (ExId × Kind)) (ns : List ℕ) (dimG : ℕ) (params : List Name) (bounds : List Bound) (pid : ℕ) (st : CaState) : Prop where
  good : Good st
  inj : IdInj st
  P : st.vars.get? "P" = some ⟨pid, dimG, dimG⟩
  scalars : ∀ n ∈ scalarNames params, IsScalar st n
  extra : 1 ≤ (ineqCons cons).length → ∃ v, st.vars.get? "lamb0" = some v ∧ v.rows = (ineqCons cons).length ∧ v.cols = 1
  nu : 1 ≤ (eqCons cons).length → ∃ v, st.vars.get? "nu0" = some v ∧ v.rows = (eqCons cons).length ∧ v.cols = 1
  fns : ∀ (idx n : ℕ), ns[idx]? = some n → ∃ v, st.vars.get? (lambVar (fnShift cons + idx)) = some v ∧ v.rows = n ∧ v.cols = n
  sat : ∀ σ, st.Sat σ ↔ InvOk params (st.value σ) ∧ (∀ i < dimG, 0 ≤ σ pid i i) ∧ BoundsOk bounds (st.value σ) ∧
    (∀ n ∈ ["eta", "rho", "h"], 0 ≤ st.value σ n) ∧
    (∀ i < (ineqCons cons).length, 0 ≤ st.symVal σ (lambName 0 i 0)) ∧
    ∀ (idx n : ℕ), ns[idx]? = some n → ∀ a < n, ∀ b < n, 0 ≤ st.symVal σ (lambName (fnShift cons + idx) a b)

theorem lambVar_isDual (k : ℕ) : IsDual (lambVar k) := by
  left
  rw [isLamb, lambVar, String.toList_append]
  have : ("lamb" : String).toList = ['l', 'a', 'm', 'b'] := by decide
  rw [this]
  simp

theorem baseNames_ok : ∀ n ∈ baseNames, Plain n ∧ ¬ IsDual n ∧ n ≠ "P" ∧ ¬ ['i', 'n', 'v'] <:+: n.toList := by decide +kernel

theorem SimpleParams.scalarNames {params : List Name} (s : SimpleParams params) {n : Name} (h : n ∈ scalarNames params) : Plain n ∧ ¬ IsDual n ∧ n ≠ "P" := by
  rw [Verif.scalarNames, List.append_assoc] at h
  rcases List.mem_append.1 h with h | h
  · exact ⟨(baseNames_ok n h).1, (baseNames_ok n h).2.1, (baseNames_ok n h).2.2.1⟩
  · exact s.names n h

theorem invLoop_ok : ∀ (l : List Name) (st : CaState), ∃ st', invLoop l st = .ok st' := by
  intro l
  induction l with
  | nil => exact fun st => ⟨st, rfl⟩
  | cons n l ih =>
    intro st
    have h1 : ((st.newVar n 1 1).newVar ("inv" ++ n) 1 1).vars.get? n = some ⟨st.sizes.length, 1, 1⟩ := by
      rw [newVar_get, if_neg (inv_ne n), newVar_get, if_pos rfl]
    have h2 : ((st.newVar n 1 1).newVar ("inv" ++ n) 1 1).vars.get? ("inv" ++ n) = some ⟨(st.newVar n 1 1).sizes.length, 1, 1⟩ := by
      rw [newVar_get, if_pos rfl]
    obtain ⟨st', hst⟩ : ∃ st', invStep st n = .ok st' := by
      simp only [invStep, scalar_of_get h1 ⟨rfl, rfl⟩, scalar_of_get h2 ⟨rfl, rfl⟩]
      exact ⟨_, rfl⟩
    obtain ⟨st2, h3⟩ := ih st'
    exact ⟨st2, by rw [invLoop, hst]; exact h3⟩

/-- the construction always reaches the conversion of the dual equations -/
theorem ipoptNlp_eq (C : CAS) (init : List Name) (goal : Sym) (dimF : ℕ) (hE : sm.nE = (eqCons cons).length)
    (s : SimpleParams params) (hb : ∀ b ∈ bounds, b.name ∈ scalarNames params) :
    ∃ st pid, Pre cons ns dimG params bounds pid st ∧ pid < st.sizes.length ∧
      ipoptNlp C sm ns cons.length dimG dimF params bounds init goal = ipoptFinish C sm dimG dimF pid init goal st := by
  have hlen := length_cons cons
  have hpl : ∀ n ∈ params, Plain n := fun n hn => (s.names n (List.mem_append_left _ hn)).1
  obtain ⟨st1, h1⟩ := invLoop_ok (invParams params) (ipoptInit dimG)
  have h : ipoptNlp C sm ns cons.length dimG dimF params bounds init goal = ipoptNlp C sm ns cons.length dimG dimF params bounds init goal := rfl
  conv_rhs at h => rw [ipoptNlp, h1]
  change _ = (do
    let p ← match (addParams params st1).vars.get? "P" with
      | some v => Except.ok v
      | none => Except.error Err.key
    let _ ← (if p.rows = dimG ∧ p.cols = dimG then Except.ok () else Except.error Err.type)
    let st := (addParams params st1).subjectAll ((List.range dimG).map fun i => .ge (.var p.id i i) (.num 0))
    let bs ← addBounds (fun n => (st.vars.get? n).map CaVar.entries) bounds none
    let st := st.subjectAll bs
    let eta ← st.scalar "eta"
    let rho ← st.scalar "rho"
    let h ← st.scalar "h"
    let st := st.subjectAll [.ge eta (.num 0), .ge rho (.num 0), .ge h (.num 0)]
    let st := extraDuals (cons.length - sm.nE) sm.nE st
    let st := fnDuals ns (if cons.length - sm.nE ≥ 1 then 1 else 0) st
    ipoptFinish C sm dimG dimF p.id init goal st) at h
  have g0 := invLoop_good _ (invParams_plain hpl) (ipoptInit_good dimG) h1
  obtain ⟨j0, z0, b0, ⟨pid, p0⟩, n0⟩ := ipoptInit_spec dimG
  obtain ⟨j1, z1, k1, c1⟩ := invLoop_sat _ s.inv_nodup (fun v hv w _ => s.inv_ne hv) (ipoptInit_good dimG) (invParams_plain hpl) j0 h1
  have g1 := addParams_good (params := params) hpl g0
  obtain ⟨j2, z2, m2, k2, c2⟩ := addParams_spec params hpl g0 j1
  have hPinv : ∀ n, ("P" : Name) ≠ "inv" ++ n := fun n hh => by
    have := congrArg String.toList hh
    rw [inv_toList] at this
    revert this
    have : ("P" : String).toList = ['P'] := by decide
    rw [this]; simp
  have hP1 : st1.vars.get? "P" = some ⟨pid, dimG, dimG⟩ := by
    rw [k1 "P" (fun hh => (s.names _ (List.mem_append_right _ hh)).2.2 rfl) fun n _ => hPinv n, p0]
  have hP2 := m2 _ _ hP1
  have hsc1 : ∀ n, n ∈ baseNames ∨ n ∈ invParams params ∨ (∃ v ∈ invParams params, n = "inv" ++ v) → IsScalar st1 n := by
    rintro n (hn | hn | ⟨v, hv, rfl⟩)
    · by_cases hi : n ∈ invParams params
      · exact (c1 n hi).1
      · obtain ⟨v, hv, h2⟩ := b0 n hn
        refine ⟨v, ?_, h2⟩
        rw [k1 n hi (fun w _ hh => (baseNames_ok n hn).2.2.2 ⟨[], w.toList, by rw [hh, inv_toList]; rfl⟩), hv]
    · exact (c1 n hn).1
    · exact (c1 v hv).2
  have hsc2 : ∀ n ∈ scalarNames params, IsScalar (addParams params st1) n := by
    intro n hn
    by_cases hb : n ∈ baseNames ∨ n ∈ invParams params ∨ (∃ v ∈ invParams params, n = "inv" ++ v)
    · obtain ⟨v, hv, h2⟩ := hsc1 n hb
      exact ⟨v, m2 _ _ hv, h2⟩
    · push Not at hb
      have hnp : n ∈ params := by
        rw [scalarNames, List.append_assoc] at hn
        rcases List.mem_append.1 hn with hn | hn
        · exact absurd hn hb.1
        · rcases List.mem_append.1 hn with hn | hn
          · exact hn
          · exact absurd hn hb.2.1
      refine c2 n hnp (Or.inr ?_)
      rw [k1 n hb.2.1 (fun w hw => hb.2.2 w hw)]
      exact n0 n hb.1 (s.names n (List.mem_append_left _ hnp)).2.2
  simp only [hP2, bind, Except.bind, and_self, if_true] at h
  change _ = (do
    let bs ← addBounds (fun n => ((addParams params st1).vars.get? n).map CaVar.entries) bounds none
    let st := ((addParams params st1).subjectAll ((List.range dimG).map fun i => .ge (.var pid i i) (.num 0))).subjectAll bs
    let eta ← st.scalar "eta"
    let rho ← st.scalar "rho"
    let h ← st.scalar "h"
    let st := st.subjectAll [.ge eta (.num 0), .ge rho (.num 0), .ge h (.num 0)]
    let st := extraDuals (cons.length - sm.nE) sm.nE st
    let st := fnDuals ns (if cons.length - sm.nE ≥ 1 then 1 else 0) st
    ipoptFinish C sm dimG dimF pid init goal st) at h
  have hpid : pid < (addParams params st1).sizes.length := g1.wf.ids _ (Dict.mem_of_get? hP2)
  have g2 := g1.subjectAll (cs := (List.range dimG).map fun i => .ge (.var pid i i) (.num 0)) (by
    intro c hc
    obtain ⟨i, -, rfl⟩ := List.mem_map.1 hc
    exact ⟨hpid, trivial⟩)
  obtain ⟨bs, hbs, -⟩ := C36_known (σ := fun _ _ _ => 0) (look := fun n => ((addParams params st1).vars.get? n).map CaVar.entries) (bounds := bounds) (by
    intro b hbb
    obtain ⟨v, hv, -⟩ := hsc2 _ (hb b hbb)
    exact ⟨_, by rw [hv]; rfl⟩)
  rw [hbs] at h
  have g3 := g2.subjectAll (cs := bs) (addBounds_below (by
    intro m xs hm
    obtain ⟨v, hv, rfl⟩ := Option.map_eq_some_iff.1 hm
    exact entries_below (g2.wf.ids _ (Dict.mem_of_get? hv))) bounds (by simp) hbs)
  have hsx : ∀ n ∈ ["eta", "rho", "h"], ∃ x, (((addParams params st1).subjectAll ((List.range dimG).map fun i => .ge (.var pid i i) (.num 0))).subjectAll
      bs).scalar n = .ok x := by
    intro n hn
    obtain ⟨v, hv, h2⟩ := hsc2 n (by rw [scalarNames, baseNames]; revert n; simp)
    exact ⟨_, scalar_of_get hv h2⟩
  obtain ⟨x1, hx1⟩ := hsx "eta" (by simp)
  obtain ⟨x2, hx2⟩ := hsx "rho" (by simp)
  obtain ⟨x3, hx3⟩ := hsx "h" (by simp)
  change _ = (do
    let eta ← (((addParams params st1).subjectAll ((List.range dimG).map fun i => .ge (.var pid i i) (.num 0))).subjectAll bs).scalar "eta"
    let rho ← (((addParams params st1).subjectAll ((List.range dimG).map fun i => .ge (.var pid i i) (.num 0))).subjectAll bs).scalar "rho"
    let h ← (((addParams params st1).subjectAll ((List.range dimG).map fun i => .ge (.var pid i i) (.num 0))).subjectAll bs).scalar "h"
    let st := (((addParams params st1).subjectAll ((List.range dimG).map fun i => .ge (.var pid i i) (.num 0))).subjectAll bs).subjectAll
      [.ge eta (.num 0), .ge rho (.num 0), .ge h (.num 0)]
    let st := extraDuals (cons.length - sm.nE) sm.nE st
    let st := fnDuals ns (if cons.length - sm.nE ≥ 1 then 1 else 0) st
    ipoptFinish C sm dimG dimF pid init goal st) at h
  rw [hx1, hx2, hx3] at h
  change _ = ipoptFinish C sm dimG dimF pid init goal (fnDuals ns (if cons.length - sm.nE ≥ 1 then 1 else 0) (extraDuals (cons.length - sm.nE) sm.nE
    ((((addParams params st1).subjectAll ((List.range dimG).map fun i => .ge (.var pid i i) (.num 0))).subjectAll bs).subjectAll
      [.ge x1 (.num 0), .ge x2 (.num 0), .ge x3 (.num 0)]))) at h
  have g4 := g3.subjectAll (cs := [.ge x1 (.num 0), .ge x2 (.num 0), .ge x3 (.num 0)]) (by
    intro c hc
    simp only [List.mem_cons, List.not_mem_nil, or_false] at hc
    rcases hc with rfl | rfl | rfl
    · exact ⟨scalar_below g3.wf hx1, trivial⟩
    · exact ⟨scalar_below g3.wf hx2, trivial⟩
    · exact ⟨scalar_below g3.wf hx3, trivial⟩)
  rw [hE, show cons.length - (eqCons cons).length = (ineqCons cons).length by omega] at h
  -- the state before the multipliers
  have hv4 : ∀ σ n, (CaState.subjectAll (CaState.subjectAll (CaState.subjectAll (addParams params st1) ((List.range dimG).map fun i => .ge (.var pid i i) (.num 0))) bs)
      [.ge x1 (.num 0), .ge x2 (.num 0), .ge x3 (.num 0)]).value σ n = (addParams params st1).value σ n := fun _ _ => rfl
  have hbounds : ∀ σ, (∀ c ∈ bs, c.Holds σ) ↔ BoundsOk bounds ((addParams params st1).value σ) := by
    intro σ
    obtain ⟨cs, hcs, hiff⟩ := C36_known (σ := σ) (look := fun n => ((addParams params st1).vars.get? n).map CaVar.entries) (bounds := bounds) (by
      intro b hbb
      obtain ⟨v, hv, -⟩ := hsc2 _ (hb b hbb)
      exact ⟨_, by rw [hv]; rfl⟩)
    have : cs = bs := by
      have := hcs.symm.trans hbs
      injection this
    subst this
    rw [hiff]
    refine forall_congr' fun b => forall_congr' fun hbb => ?_
    obtain ⟨v, hv, h2⟩ := hsc2 _ (hb b hbb)
    obtain ⟨he, hev⟩ := scalar_entries hv h2 σ
    rw [longEnv_plain (s.scalarNames (hb b hbb)).1, ← hev]
    simp only [hv, Option.map_some, Option.some.injEq, forall_eq', he, List.mem_singleton, forall_eq]
    exact Iff.rfl
  have hinv : ∀ σ, (addParams params st1).Sat σ ↔ InvOk params ((addParams params st1).value σ) := by
    intro σ
    rw [z2, z1]
    constructor
    · rintro ⟨-, hh⟩ v hv
      obtain ⟨⟨w, hw, -⟩, ⟨w', hw', -⟩⟩ := c1 v hv
      rw [value_congr_get ((m2 _ _ hw).trans hw.symm), value_congr_get ((m2 _ _ hw').trans hw'.symm)]
      exact hh v hv
    · intro hh
      refine ⟨z0 σ, fun v hv => ?_⟩
      obtain ⟨⟨w, hw, -⟩, ⟨w', hw', -⟩⟩ := c1 v hv
      have := hh v hv
      rwa [value_congr_get ((m2 _ _ hw).trans hw.symm), value_congr_get ((m2 _ _ hw').trans hw'.symm)] at this
  have hsat4 : ∀ σ, (CaState.subjectAll (CaState.subjectAll (CaState.subjectAll (addParams params st1) ((List.range dimG).map fun i => .ge (.var pid i i) (.num 0))) bs)
      [.ge x1 (.num 0), .ge x2 (.num 0), .ge x3 (.num 0)]).Sat σ ↔ InvOk params ((addParams params st1).value σ) ∧ (∀ i < dimG, 0 ≤ σ pid i i) ∧
        BoundsOk bounds ((addParams params st1).value σ) ∧ ∀ n ∈ ["eta", "rho", "h"], 0 ≤ (addParams params st1).value σ n := by
    intro σ
    rw [sat_subjectAll, sat_subjectAll, sat_subjectAll, hinv, hbounds, and_assoc, and_assoc]
    refine and_congr_right fun _ => and_congr ?_ (and_congr_right fun _ => ?_)
    · simp [Constr.Holds, CExp.eval]
    · have e1 := scalar_value hx1 σ
      have e2 := scalar_value hx2 σ
      have e3 := scalar_value hx3 σ
      simp only [List.mem_cons, List.not_mem_nil, or_false, forall_eq_or_imp, forall_eq, Constr.Holds, CExp.eval, e1, e2, e3]
      simp only [Rat.cast_zero]
      exact Iff.rfl
  set st4 := (CaState.subjectAll (CaState.subjectAll (CaState.subjectAll (addParams params st1) ((List.range dimG).map fun i => .ge (.var pid i i) (.num 0))) bs)
      [.ge x1 (.num 0), .ge x2 (.num 0), .ge x3 (.num 0)]) with hst4
  have hget4 : st4.vars = (addParams params st1).vars := rfl
  have j4 : IdInj st4 := j2
  obtain ⟨j5, k5, n5, z5⟩ := extraDuals_sat (ineqCons cons).length (eqCons cons).length g4 j4
  obtain ⟨g5, -, s5, x5⟩ := extraDuals_spec (ineqCons cons).length (eqCons cons).length g4
  obtain ⟨j6, z6⟩ := fnDuals_sat ns (fnShift cons) g5 j5
  obtain ⟨g6, k6, n6⟩ := fnDuals_spec ns (fnShift cons) g5
  set st5 := extraDuals (ineqCons cons).length (eqCons cons).length st4
  set st6 := fnDuals ns (fnShift cons) st5
  have hnu : IsDual "nu0" := by decide +kernel
  have hl0 : lambVar 0 = "lamb0" := by decide +kernel
  have hkeep : ∀ n, ¬ IsDual n → st6.vars.get? n = (addParams params st1).vars.get? n := by
    intro n hn
    rw [k6.get n fun j _ hh => hn (hh ▸ lambVar_isDual j), k5 n (by rintro rfl; exact hn (hl0 ▸ lambVar_isDual 0)) (by rintro rfl; exact hn hnu), hget4]
  have hPd : ¬ IsDual "P" := by decide +kernel
  have hl0keep : 1 ≤ (ineqCons cons).length → st6.vars.get? "lamb0" = st5.vars.get? "lamb0" := fun h1 => k6.get _ fun j hj hh => by
    rw [← hl0] at hh
    have := lambVar_inj hh
    rw [fnShift, if_pos h1] at hj
    omega
  have hnukeep : st6.vars.get? "nu0" = st5.vars.get? "nu0" := k6.get _ fun j _ hh => by
    have h1 := congrArg (fun s : String => s.toList.take 1) hh
    simp only [lambVar, String.toList_append] at h1
    revert h1
    have a1 : ("lamb" : String).toList = ['l', 'a', 'm', 'b'] := by decide
    have a2 : ("nu0" : String).toList = ['n', 'u', '0'] := by decide
    rw [a1, a2]; simp
  refine ⟨st6, pid, ⟨g6, j6, ?_, ?_, ?_, ?_, ?_, ?_⟩, ?_, h⟩
  · rw [hkeep _ hPd]; exact hP2
  · intro n hn
    obtain ⟨v, hv, h2⟩ := hsc2 n hn
    exact ⟨v, by rw [hkeep _ (s.scalarNames hn).2.1, hv], h2⟩
  · intro h1
    obtain ⟨v, hv, h2, h3, -⟩ := x5 h1
    rw [hl0] at hv
    exact ⟨v, by rw [hl0keep h1, hv], h2, h3⟩
  · intro h1
    obtain ⟨v, hv, h2⟩ := n5 h1
    exact ⟨v, by rw [hnukeep, hv], h2⟩
  · intro idx n hn
    obtain ⟨v, hv, h2, h3, -⟩ := n6 idx n hn
    exact ⟨v, hv, h2, h3⟩
  · intro σ
    have hvk : ∀ n, ¬ IsDual n → st6.value σ n = (addParams params st1).value σ n := fun n hn => value_congr_get (hkeep n hn) σ
    rw [z6, z5, hsat4, and_assoc, and_assoc, and_assoc, and_assoc]
    refine and_congr ?_ (and_congr_right fun _ => and_congr ?_ (and_congr ?_ (and_congr ?_ ?_)))
    · refine forall_congr' fun v => forall_congr' fun hv => ?_
      rw [hvk v (s.names v (List.mem_append_right _ hv)).2.1, hvk ("inv" ++ v) (s.names _ (List.mem_append_left _ (s.mem_inv hv).1)).2.1]
    · refine forall_congr' fun b => forall_congr' fun hbb => ?_
      have hh := s.scalarNames (hb b hbb)
      rw [longEnv_plain hh.1, longEnv_plain hh.1, hvk _ hh.2.1]
    · refine forall_congr' fun n => forall_congr' fun hn => ?_
      rw [hvk n (baseNames_ok n (by revert hn n; decide)).2.1]
    · constructor
      · intro hh i hi
        obtain ⟨v, hv, h2, h3, -⟩ := x5 (by omega)
        rw [hl0] at hv
        rw [symVal_lamb (by rw [hl0, hl0keep (by omega), hv])]
        exact hh (by omega) v hv i hi
      · intro hh h1 v hv a ha
        have := hh a ha
        rwa [symVal_lamb (by rw [hl0, hl0keep (by omega), hv])] at this
    · refine forall_congr' fun idx => forall_congr' fun n => forall_congr' fun hn => ?_
      obtain ⟨v, hv, -⟩ := n6 idx n hn
      constructor
      · intro hh a ha b hb
        rw [symVal_lamb hv]
        exact hh v hv a ha b hb
      · intro hh w hw a ha b hb
        have := hh a ha b hb
        rwa [symVal_lamb hw] at this
  · exact lt_of_lt_of_le hpid (s5.length_le.trans k6.sizes.length_le)

theorem ipoptNlp_pre (h : ipoptNlp C sm ns cons.length dimG dimF params bounds init goal = .ok nlp) (hE : sm.nE = (eqCons cons).length)
    (s : SimpleParams params) (hb : ∀ b ∈ bounds, b.name ∈ scalarNames params) :
    ∃ st pid, Pre cons ns dimG params bounds pid st ∧ pid < st.sizes.length ∧ ipoptFinish C sm dimG dimF pid init goal st = .ok nlp := by
  obtain ⟨st, pid, p, h1, h2⟩ := ipoptNlp_eq (ns := ns) (dimG := dimG) C init goal dimF hE s hb
  exact ⟨st, pid, p, h1, h2 ▸ h⟩

end Verif
