import Verif.Proofs.QcqpCore
import Verif.Proofs.Nlp

/-!
# Feasible vectors are packed dual points
-/

namespace Verif

variable {C : CAS} {sm : SymMats} {dimG dimF : ℕ} {params : List Name} {bounds : List Bound} {q : QData}

/-- shape of the dictionary of symbolic matrices -/
structure SymMats.Prepared (sm : SymMats) (ents : List (SpKey × FG)) (obj : FG) : Prop where
  sp : sm.spExp = ents ++ [(SpKey.obj, obj)]
  nodup : (Dict.keys sm.spExp).Nodup
  len : ents.length = sm.nI + sm.nE
  ineq : ∀ (k : ℕ) (key : SpKey) (m : FG), ents[k]? = some (key, m) → (k < sm.nI ↔ ∃ a b c, key = .tup 0 a b c)

theorem Translates.prepared {h h' : Heap} {r : Regs} (t : Translates C h r sm h') : ∃ ents obj, sm.Prepared ents obj := by
  obtain ⟨ents, obj, hs, -⟩ := t.sum
  refine ⟨ents, obj, hs, by rw [t.keys]; exact nodup_expectedKeys _ _, ?_, ?_⟩
  · have := congrArg List.length t.keys
    rw [hs, Dict.keys_append] at this
    simp [expectedKeys, Dict.keys] at this
    rw [t.nI, t.nE]; omega
  · intro k key m hk
    set ns := (leafFnIds h).map (nSamples h)
    have hkey : ((List.range (ineqCons r.cons).length).map (fun i => SpKey.tup 0 0 i 0) ++ fnKeys ns (fnShift r.cons) ++
        (List.range (eqCons r.cons).length).map (fun i => SpKey.tup 1 0 i 0))[k]? = some key := by
      have h1 := t.keys
      rw [hs, Dict.keys_append, expectedKeys] at h1
      have h2 := (List.append_inj' h1 rfl).1
      rw [← h2, Dict.keys, List.getElem?_map, hk]; rfl
    have hl : ((List.range (ineqCons r.cons).length).map (fun i => SpKey.tup 0 0 i 0) ++ fnKeys ns (fnShift r.cons)).length = sm.nI := by
      rw [t.nI]; simp [ns]
    by_cases hlt : k < sm.nI
    · refine ⟨fun _ => ?_, fun _ => hlt⟩
      rw [List.getElem?_append_left (by omega)] at hkey
      rcases List.mem_append.1 (List.mem_of_getElem? hkey) with h1 | h1
      · obtain ⟨i, -, rfl⟩ := List.mem_map.1 h1; exact ⟨_, _, _, rfl⟩
      · obtain ⟨_, _, _, _, -, rfl, -⟩ := mem_fnKeys_inv h1; exact ⟨_, _, _, rfl⟩
    · refine ⟨fun hh => absurd hh hlt, ?_⟩
      rintro ⟨a, b, c, rfl⟩
      rw [List.getElem?_append_right (by omega)] at hkey
      obtain ⟨i, -, h1⟩ := List.mem_map.1 (List.mem_of_getElem? hkey)
      simp at h1

/-- `x` starts with the values of the monomials -/
def Monos (names : List VName) (x : ℕ → ℝ) (env : Name → ℝ) : Prop := ∀ i n, names[i]? = some n → x i = n.val env

theorem sum_pad {names : List VName} {x : ℕ → ℝ} {env : Name → ℝ} (hm : Monos names x env) (c : Coeff) (hc : c.cols ≤ names.length) (k : ℕ) :
    ∑ j ∈ Finset.range names.length, ((if j < c.cols then c.at_ k j else 0 : ℚ) : ℝ) * x j = c.rowVal names env k := by
  rw [Coeff.rowVal, ← Finset.sum_subset (Finset.range_subset_range.2 hc)]
  · refine Finset.sum_congr rfl fun j hj => ?_
    have hj := Finset.mem_range.1 hj
    rw [if_pos hj, List.getElem?_eq_getElem (by omega), Option.map_some, Option.getD_some, ← hm j _ (List.getElem?_eq_getElem (by omega))]
  · intro j _ hj
    rw [Finset.mem_range] at hj
    rw [if_neg hj]; simp

theorem sum_list {α : Type} : ∀ (l : List α) (f : ℕ → ℝ) (g : α → ℝ), (∀ i a, l[i]? = some a → f i = g a) →
    ∑ i ∈ Finset.range l.length, f i = (l.map g).sum := by
  intro l
  induction l with
  | nil => intro f g _; simp
  | cons a l ih =>
    intro f g h
    rw [List.length_cons, Finset.sum_range_succ', List.map_cons, List.sum_cons, h 0 a rfl, ih (fun i => f (i + 1)) g fun i b hb => h (i + 1) b (by simpa using hb)]
    ring

theorem lin_pad {co : Coeff} {rows : ℕ} {names : List VName} {m : Mat ℚ} {x : ℕ → ℝ} {env : Name → ℝ} {s : QSizes} (hs : s.v = names.length)
    (hm : Monos names x env) (h : padTo co rows names.length = .ok m) (k : ℕ) : linVal s m k x = co.rowVal names env k := by
  obtain ⟨h1, rfl⟩ := padTo_inv h
  rw [linVal, hs, ← sum_pad hm co h1]

theorem bil_stack {cs : List Coeff} {names : List VName} {m : ℕ → Mat ℚ} {x : ℕ → ℝ} {env : Name → ℝ} {s : QSizes} (hs : s.v = names.length)
    (hn : s.nI + s.nE = cs.length) (hm : Monos names x env) (h : stackVectors cs names.length = .ok m) (k : ℕ) :
    bilVal s (m k) x = ∑ i ∈ Finset.range cs.length, x (s.v + i) * (match cs[i]? with
      | some c => c.rowVal names env k
      | none => 0) := by
  obtain ⟨h1, rfl⟩ := stackVectors_inv h
  rw [bilVal, hn]
  refine Finset.sum_congr rfl fun i hi => ?_
  have hi := Finset.mem_range.1 hi
  rw [List.getElem?_eq_getElem hi]
  simp only
  rw [← sum_pad hm _ (h1 _ (List.getElem_mem hi)) k, Finset.mul_sum, hs]
  exact Finset.sum_congr rfl fun j _ => by
    rw [List.getElem?_eq_getElem hi]; ring

section
variable (hC : C.Lawful) (hp : params.Nodup) {cs : List (Coeff × Coeff)} {co : Coeff × Coeff} (fr : q.From C sm dimG dimF params cs co)
  {ents : List (SpKey × FG)} {obj : FG} (pr : sm.Prepared ents obj) {x : ℕ → ℝ} {env : Name → ℝ} {mult : SpKey → ℝ}
include hC hp fr pr

/-- the value of the F equation -/
theorem eqF_value (hm : Monos q.tab.names x env)
    (hmu : ∀ k key m, ents[k]? = some (key, m) → x (q.tab.names.length + k) = mult key) {k : ℕ} (hk : k < dimF) :
    linVal q.s q.objF k x - bilVal q.s (q.sumF k) x = sm.objF env k - sm.dualF env mult k := by
  obtain ⟨hl, hrow⟩ := C18_rows hC hp fr.coeff
  obtain ⟨e1, e2⟩ := DualFeasible.split pr.sp pr.nodup
  have hlen : ents.length = cs.length := by
    have := congrArg List.length pr.sp; simp at this
    simp at hl; omega
  have hs : q.s.v = q.tab.names.length := by rw [fr.s]
  have hn : q.s.nI + q.s.nE = (cs.map Prod.fst).length := by rw [fr.s, List.length_map]; exact fr.len.symm
  rw [lin_pad hs hm fr.objF, bil_stack hs hn hm fr.sumF, SymMats.objF, SymMats.dualF, e1, e2]
  have ho := (hrow ents.length .obj obj co.1 co.2 (by rw [pr.sp]; simp) (by simp [hlen])).2 env
  rw [ho.1 k hk, List.length_map, ← hlen]
  congr 1
  refine sum_list ents _ _ ?_
  rintro i ⟨key, m⟩ hi
  have hi' : i < ents.length := (List.getElem?_eq_some_iff.1 hi).1
  have hc : cs[i]? = some (cs[i]'(by omega)) := List.getElem?_eq_getElem _
  rw [hs, hmu i key m hi, List.getElem?_map, hc]
  simp only [Option.map_some]
  rw [((hrow i key m (cs[i]'(by omega)).1 (cs[i]'(by omega)).2 (by rw [pr.sp, List.getElem?_append_left hi', hi])
    (by rw [List.getElem?_append_left (by omega), hc])).2 env).1 k hk]

/-- the value of the G equation -/
theorem eqG_value (hm : Monos q.tab.names x env)
    (hmu : ∀ k key m, ents[k]? = some (key, m) → x (q.tab.names.length + k) = mult key) {k1 k2 : ℕ} (h1 : k1 < dimG) (h2 : k2 < dimG) :
    linVal q.s q.objG (k1 * dimG + k2) x - bilVal q.s (q.sumG (k1 * dimG + k2)) x = sm.objG env k1 k2 - sm.dualG env mult k1 k2 := by
  obtain ⟨hl, hrow⟩ := C18_rows hC hp fr.coeff
  obtain ⟨e1, e2⟩ := DualFeasible.split pr.sp pr.nodup
  have hlen : ents.length = cs.length := by
    have := congrArg List.length pr.sp; simp at this
    simp at hl; omega
  have hs : q.s.v = q.tab.names.length := by rw [fr.s]
  have hn : q.s.nI + q.s.nE = (cs.map Prod.snd).length := by rw [fr.s, List.length_map]; exact fr.len.symm
  rw [lin_pad hs hm fr.objG, bil_stack hs hn hm fr.sumG, SymMats.objG, SymMats.dualG, e1, e2]
  have ho := (hrow ents.length .obj obj co.1 co.2 (by rw [pr.sp]; simp) (by simp [hlen])).2 env
  rw [ho.2 k1 h1 k2 h2, List.length_map, ← hlen]
  congr 1
  refine sum_list ents _ _ ?_
  rintro i ⟨key, m⟩ hi
  have hi' : i < ents.length := (List.getElem?_eq_some_iff.1 hi).1
  have hc : cs[i]? = some (cs[i]'(by omega)) := List.getElem?_eq_getElem _
  rw [hs, hmu i key m hi, List.getElem?_map, hc]
  simp only [Option.map_some]
  rw [((hrow i key m (cs[i]'(by omega)).1 (cs[i]'(by omega)).2 (by rw [pr.sp, List.getElem?_append_left hi', hi])
    (by rw [List.getElem?_append_left (by omega), hc])).2 env).2 k1 h1 k2 h2]

end

/-! ### The values of the monomials -/

theorem VTab.Ok.lookup {tab : VTab} (o : tab.Ok) {n : Name} {i : ℕ} : tab.lookup n = .ok i ↔ tab.names[i]? = some (.str n) := by
  rw [lookup_ok, o.get]

theorem longEnv_split (env : Name → ℝ) {s : Name} {l : List Name} {a : Name} (h : splitU s = l ++ [a]) (hl : l ≠ []) (hpl : ∀ n ∈ l ++ [a], Plain n) :
    longEnv env s = longEnv env (joinU l) * env a := by
  rw [longEnv, longEnv, h, splitU_join_plain hl fun n hn => hpl n (by simp [hn])]
  simp

section
variable {tab : VTab} (o : tab.Ok) (hone : tab.names[0]? = some .one) (hcl : TableClosed params tab.names) (hpl : ∀ n ∈ params, Plain n)
  (hpr : ∀ n ∈ tab.names.drop 1, ∃ p, productIdx tab n = .ok p) {x : ℕ → ℝ}
include o hone hcl hpl

theorem prod_of_monos {env : Name → ℝ} (hm : Monos tab.names x env) {n : VName} (hn : n ∈ tab.names) {p : ℕ × ℕ × ℕ}
    (h : productIdx tab n = .ok (some p)) : x p.2.1 * x p.2.2 - x p.1 = 0 := by
  cases n with
  | one => cases h
  | str s =>
    obtain ⟨h0, h1, h2, h3⟩ := productIdx_ok h
    rw [o.lookup] at h1 h2 h3
    rcases hcl s hn with hs | ⟨l, a, hl, e, hin, -, -⟩
    · exact absurd (by rw [splitU_plain (hpl s hs)]; rfl) h0
    · have hpl' : ∀ n ∈ l ++ [a], Plain n := fun n hn => hpl n (hin n hn)
      rw [e] at h2 h3
      simp only [List.dropLast_concat, List.getLastD_concat] at h2 h3
      rw [hm _ _ h1, hm _ _ h2, hm _ _ h3]
      simp only [VName.val]
      rw [longEnv_split env e hl hpl', longEnv_plain (hpl' a (by simp))]; ring

include hpr in
theorem monos_of_prod (h1 : x 0 = 1) (h : ∀ n ∈ tab.names.drop 1, ∀ p, productIdx tab n = .ok (some p) → x p.2.1 * x p.2.2 - x p.1 = 0) :
    ∃ env, Monos tab.names x env := by
  refine ⟨fun n => match tab.idx.get? (.str n) with | some i => x i | none => 0, ?_⟩
  set env : Name → ℝ := fun n => match tab.idx.get? (.str n) with | some i => x i | none => 0 with henv
  have hdrop : ∀ {n}, n ∈ tab.names → n ≠ .one → n ∈ tab.names.drop 1 := by
    intro n hn hne
    cases hnm : tab.names with
    | nil => rw [hnm] at hn; cases hn
    | cons a l =>
      rw [hnm] at hone hn
      simp only [List.getElem?_cons_zero, Option.some.injEq] at hone
      subst hone
      rcases List.mem_cons.1 hn with hn | hn
      · exact absurd hn hne
      · simpa using hn
  have hval : ∀ s i, tab.names[i]? = some (.str s) → env s = x i := by
    intro s i hi
    rw [henv]; simp only; rw [o.get.2 hi]
  have key : ∀ len s i, (splitU s).length = len → tab.names[i]? = some (.str s) → x i = longEnv env s := by
    intro len
    induction len using Nat.strong_induction_on with
    | _ len ih =>
      intro s i hlen hi
      have hmem := List.mem_of_getElem? hi
      rcases hcl s hmem with hs | ⟨l, a, hl, e, hin, -, -⟩
      · rw [longEnv_plain (hpl s hs), hval s i hi]
      · have hpl' : ∀ n ∈ l ++ [a], Plain n := fun n hn => hpl n (hin n hn)
        have hl1 : 1 ≤ l.length := by cases l with | nil => exact absurd rfl hl | cons _ _ => simp
        have hne : (splitU s).length ≠ 1 := by rw [e]; simp; exact hl
        obtain ⟨p, hp⟩ := hpr _ (hdrop hmem (by simp))
        cases p with
        | none =>
          exfalso
          rw [productIdx, if_neg hne] at hp
          obtain ⟨_, -, hp⟩ := Except.bind_ok_iff.1 hp
          obtain ⟨_, -, hp⟩ := Except.bind_ok_iff.1 hp
          obtain ⟨_, -, hp⟩ := Except.bind_ok_iff.1 hp
          injection hp with hp; cases hp
        | some p =>
          obtain ⟨-, h1', h2, h3⟩ := productIdx_ok hp
          have h0 := h _ (hdrop hmem (by simp)) p hp
          rw [o.lookup] at h1' h2 h3
          rw [e] at h2 h3
          simp only [List.dropLast_concat, List.getLastD_concat] at h2 h3
          have hi1 : p.1 = i := by
            have := (o.get.2 h1').symm.trans (o.get.2 hi)
            injection this
          rw [longEnv_split env e hl hpl', hval a _ h2,
            ← ih l.length (by rw [← hlen, e]; simp) (joinU l) _ (by rw [splitU_join_plain hl fun n hn => hpl' n (by simp [hn])]) h3, ← hi1]
          linarith
  intro i n hi
  cases n with
  | one =>
    have : i = 0 := by
      have := (o.get.2 hi).symm.trans (o.get.2 hone)
      injection this
    subst this; rw [h1]; rfl
  | str s => exact key _ s i rfl hi

end

theorem invParams_plain2 (hpl : ∀ n ∈ params, Plain n) {v : Name} (h : v ∈ invParams params) : Plain v ∧ Plain ("inv" ++ v) := by
  rw [invParams, List.mem_map] at h
  obtain ⟨n, hn, rfl⟩ := h
  have := hpl n (List.mem_filter.1 hn).1
  have hp : '_' ∉ n.toList.drop 3 := fun hh => this (List.mem_of_mem_drop hh)
  refine ⟨by simpa [Plain] using hp, ?_⟩
  simp only [Plain, String.toList_append, String.toList_ofList, List.mem_append, not_or]
  exact ⟨by decide, hp⟩

theorem boundsOk_iff {tab : VTab} (o : tab.Ok) {xs : ℕ} {x : ℕ → ℝ} {env : Name → ℝ} (hm : Monos tab.names x env) :
    ∀ (bounds : List Bound) (this : Option (List CExp)) {bs : List Constr}, (∀ b ∈ bounds, VName.str b.name ∈ tab.names ∧ b.name ≠ "x") →
      addBounds (qLook tab xs) bounds this = .ok bs → ((∀ c ∈ bs, c.Holds fun _ i _ => x i) ↔ BoundsOk bounds env) := by
  intro bounds
  induction bounds with
  | nil => intro this bs _ h; injection h with h; subst h; simp [BoundsOk]
  | cons b bounds ih =>
    intro this bs hb h
    rw [addBounds] at h
    obtain ⟨hn, hx⟩ := hb b (by simp)
    obtain ⟨i, hi⟩ := List.getElem?_of_mem hn
    have hlook : qLook tab xs b.name = some [xv i] := by rw [qLook, if_neg hx, o.get.2 hi]; rfl
    rw [hlook] at h
    simp only at h
    have hxi : x i = longEnv env b.name := hm i _ hi
    have hrest : ∀ b' ∈ bounds, VName.str b'.name ∈ tab.names ∧ b'.name ≠ "x" := fun b' hb' => hb b' (by simp [hb'])
    split at h
    · rename_i hnone
      rw [ih _ hrest h]
      simp only [BoundsOk, List.mem_cons, forall_eq_or_imp]
      refine ⟨fun hh => ⟨⟨fun u hu => ?_, fun l hl => ?_⟩, hh⟩, fun hh => hh.2⟩
      · rw [hnone.1] at hu; cases hu
      · rw [hnone.2] at hl; cases hl
    · obtain ⟨cs, h1, h⟩ := Except.bind_ok_iff.1 h
      injection h with h
      subst h
      rw [forall_mem_append', ih _ hrest h1]
      simp only [BoundsOk, List.mem_cons, forall_eq_or_imp]
      refine and_congr_left fun _ => ?_
      rw [boundCons, forall_mem_append']
      refine and_congr ?_ ?_
      · cases b.ub with
        | none => simp
        | some u =>
          simp only [List.map_cons, List.map_nil, List.mem_singleton, forall_eq, Option.some.injEq, forall_eq']
          rw [holds_ge_iff]
          show x i ≤ (u : ℝ) ↔ _
          rw [hxi]
      · cases b.lb with
        | none => simp
        | some l =>
          simp only [List.map_cons, List.map_nil, List.mem_singleton, forall_eq, Option.some.injEq, forall_eq']
          rw [holds_ge_iff]
          show (l : ℝ) ≤ x i ↔ _
          rw [hxi]

theorem qData_table (hC : C.Lawful) (hp : params.Nodup) (h : qData C sm dimG dimF params = .ok q) :
    q.tab.Ok ∧ (VName.one :: params.map VName.str) <+: q.tab.names ∧ q.Bounded ∧ q.s.dimG = dimG := by
  obtain ⟨cs, co, fr⟩ := qData_inv h
  obtain ⟨o, pre, -⟩ := coeffLoop_spec (params := params) hC _ (VTab.init_ok hp) List.prefix_rfl fr.coeff
  refine ⟨o, pre, ?_, by rw [fr.s]⟩
  intro n i hi
  rw [o.lookup] at hi
  rw [fr.s]
  exact (List.getElem?_eq_some_iff.1 hi).1

/-- a vector satisfies the equations iff it packs a solution of the dual system -/
theorem core_packs (hC : C.Lawful) (hp : params.Nodup) (hpl : ∀ n ∈ params, Plain n) (hv : ∀ km ∈ sm.spExp, ∀ n, km.2.Occurs n → n ∈ params)
    (h : qData C sm dimG dimF params = .ok q) {ents : List (SpKey × FG)} {obj : FG} (pr : sm.Prepared ents obj)
    (hpr : ∀ n ∈ q.tab.names.drop 1, ∃ p, productIdx q.tab n = .ok p)
    (hinv : ∀ n ∈ invParams params, ∃ i ii, q.tab.lookup n = .ok i ∧ q.tab.lookup ("inv" ++ n) = .ok ii)
    (hb : ∀ b ∈ bounds, VName.str b.name ∈ q.tab.names ∧ b.name ≠ "x") {bs : List Constr}
    (hbs : addBounds (qLook q.tab q.s.x) bounds none = .ok bs) (x : ℕ → ℝ) :
    q.Core dimF params bs x ↔ ∃ env mult P, Packs sm q.tab.names dimG dimF x env mult P ∧ InvOk params env ∧ BoundsOk bounds env := by
  obtain ⟨o, pre, -, hdim⟩ := qData_table hC hp h
  obtain ⟨cs, co, fr⟩ := qData_inv h
  have hone : q.tab.names[0]? = some .one := by obtain ⟨t, ht⟩ := pre; rw [← ht]; rfl
  have hcl : TableClosed params q.tab.names := by
    refine coeffLoop_closed hC hpl _ (VTab.init_ok hp) List.prefix_rfl (fun m hm n hn => ?_) TableClosed.init fr.coeff
    obtain ⟨km, hk, rfl⟩ := List.mem_map.1 hm
    exact hv km hk n hn
  have hs : q.s = ⟨q.tab.names.length, sm.nI, sm.nE, dimG⟩ := fr.s
  have hkeys : ∀ (k : ℕ) (key : SpKey), key ≠ .obj → ((Dict.keys sm.spExp)[k]? = some key ↔ ∃ m, ents[k]? = some (key, m)) := by
    intro k key hne
    rw [pr.sp, Dict.keys_append]
    have hl : (Dict.keys ents).length = ents.length := by simp [Dict.keys]
    rcases Nat.lt_or_ge k ents.length with hk | hk
    · rw [List.getElem?_append_left (by omega), Dict.keys, List.getElem?_map]
      cases he : ents[k]? with
      | none => simp
      | some e => obtain ⟨a, b⟩ := e; simp
    · rw [List.getElem?_append_right (by omega), List.getElem?_eq_none (l := ents) hk]
      simp only [reduceCtorEq, exists_false, iff_false]
      intro hh
      have := List.mem_of_getElem? hh
      simp at this
      exact hne this
  have hobj : ∀ (k : ℕ) (key : SpKey) m, ents[k]? = some (key, m) → key ≠ .obj := by
    intro k key m hk hh
    subst hh
    have := pr.nodup
    rw [pr.sp, Dict.keys_append, List.nodup_append] at this
    exact this.2.2 SpKey.obj (List.mem_map.2 ⟨_, List.mem_of_getElem? hk, rfl⟩) SpKey.obj (by simp) rfl
  have tri_eq : ∀ i k, triOf q.s x i k = if k ≤ i then x (q.tab.names.length + (sm.nI + sm.nE) + (startIdx i + k)) else 0 := by
    intro i k; rw [triOf, hs]
  constructor
  · intro c
    obtain ⟨env, hm⟩ := monos_of_prod o hone hcl hpl hpr c.one c.prod
    have hmu : ∀ k key m, ents[k]? = some (key, m) →
        x (q.tab.names.length + k) = (fun key => x (q.tab.names.length + (Dict.keys sm.spExp).idxOf key)) key := by
      intro k key m hk
      have := (hkeys k key (hobj k key m hk)).2 ⟨m, hk⟩
      simp only
      obtain ⟨h1, h2⟩ := List.getElem?_eq_some_iff.1 this
      have := pr.nodup.idxOf_getElem k h1
      rw [h2] at this
      rw [this]
    refine ⟨env, fun key => x (q.tab.names.length + (Dict.keys sm.spExp).idxOf key), triOf q.s x, ⟨hm, ?_, ?_, ?_, ?_, ?_, ?_, ?_⟩, ?_, ?_⟩
    · intro k key hk hne
      obtain ⟨m, hk⟩ := (hkeys k key hne).1 hk
      exact hmu k key m hk
    · intro i _ k hk
      rw [tri_eq, if_pos hk]; rfl
    · intro i k hk
      rw [tri_eq, if_neg (by omega)]
    · intro i hi; exact c.diag i (by rw [hs]; exact hi)
    · intro a b c' hmem
      obtain ⟨k, hk⟩ := List.getElem?_of_mem hmem
      obtain ⟨m, hk⟩ := (hkeys k _ (by simp)).1 hk
      have hlt := (pr.ineq k _ m hk).2 ⟨_, _, _, rfl⟩
      refine le_of_le_of_eq ?_ (hmu k _ m hk)
      have := c.lamb k (by rw [hs]; exact hlt)
      rw [hs] at this; exact this
    · intro k hk
      have := c.F k hk
      rw [eqF_value hC hp fr pr hm hmu hk] at this
      linarith
    · intro i hi j hj
      have h1 := c.G i (by rw [hs]; exact hi) j (by rw [hs]; exact hj)
      rw [hdim] at h1
      have h2 := eqG_value hC hp fr pr hm hmu hi hj
      linarith
    · intro v hvp
      obtain ⟨i, ii, e1, e2⟩ := hinv v hvp
      obtain ⟨p1, p2⟩ := invParams_plain2 hpl hvp
      have := c.inv v hvp i ii e1 e2
      rw [o.lookup] at e1 e2
      rw [hm _ _ e1, hm _ _ e2] at this
      simp only [VName.val] at this
      rwa [longEnv_plain p1, longEnv_plain p2] at this
    · exact (boundsOk_iff o hm bounds none hb hbs).1 c.bounds
  · rintro ⟨env, mult, P, pk, hi, hbo⟩
    have hm : Monos q.tab.names x env := pk.monos
    have hmu : ∀ k key m, ents[k]? = some (key, m) → x (q.tab.names.length + k) = mult key := fun k key m hk =>
      pk.mults k key ((hkeys k key (hobj k key m hk)).2 ⟨m, hk⟩) (hobj k key m hk)
    have htri : ∀ i < dimG, ∀ k, triOf q.s x i k = P i k := by
      intro i hi k
      rw [tri_eq]
      split
      · exact pk.tri i hi k (by assumption)
      · exact (pk.upper i k (by omega)).symm
    refine ⟨hm 0 _ hone, ?_, ?_, ?_, ?_, (boundsOk_iff o hm bounds none hb hbs).2 hbo, ?_, ?_⟩
    · intro k hk
      rw [eqF_value hC hp fr pr hm hmu hk]
      have := pk.dual.F k hk
      linarith
    · rw [hdim]
      intro i hi j hj
      have h1 := eqG_value hC hp fr pr hm hmu hi hj
      have h2 := pk.dual.G i hi j hj
      simp only [htri i hi, htri j hj]
      linarith
    · intro n hn p hnp
      exact prod_of_monos o hone hcl hpl hm (List.mem_of_mem_drop hn) hnp
    · intro v hvp i ii e1 e2
      obtain ⟨p1, p2⟩ := invParams_plain2 hpl hvp
      rw [o.lookup] at e1 e2
      rw [hm _ _ e1, hm _ _ e2]
      simp only [VName.val]
      rw [longEnv_plain p1, longEnv_plain p2]
      exact hi v hvp
    · intro i hi
      rw [hs] at hi ⊢
      simp only at hi ⊢
      have hlen := pr.len
      have hk : ents[i]? = some ents[i] := List.getElem?_eq_getElem (by omega)
      obtain ⟨a, b, c, hkey⟩ := (pr.ineq i _ _ hk).1 hi
      rw [hmu i _ _ hk, hkey]
      apply pk.dual.nonneg
      rw [← hkey, pr.sp, Dict.keys_append]
      exact List.mem_append_left _ (List.mem_map.2 ⟨_, List.getElem_mem _, rfl⟩)
    · rw [hdim]
      intro i hi
      rw [htri i hi]
      exact pk.diag i hi

end Verif
