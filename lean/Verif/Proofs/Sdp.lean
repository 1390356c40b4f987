import Verif.Proofs.QcqpPack
import Verif.Spec.Sdp

/-!
# The semidefinite program at fixed parameters
-/

namespace Verif

variable {C : CAS} {sm : SymMats} {dimG dimF : ℕ} {params : List Name} {q : QData}

theorem evalMonomial_ok {vals : Dict Name ℚ} {n : VName} {c : ℚ} (h : evalMonomial vals n = .ok c) : (c : ℝ) = n.val (dictEnv vals) := by
  cases n with
  | one => injection h with h; subst h; simp [VName.val]
  | str s =>
    have key : ∀ (l : List Name) (a c : ℚ), l.foldlM (fun res v => match vals.get? v with
        | some c => .ok (res * c)
        | none => .error Err.key) a = Except.ok c → (c : ℝ) = a * (l.map (dictEnv vals)).prod := by
      intro l
      induction l with
      | nil => intro a c h; injection h with h; subst h; simp
      | cons b l ih =>
        intro a c h
        rw [List.foldlM_cons] at h
        cases hb : vals.get? b with
        | none => rw [hb] at h; cases h
        | some y =>
          rw [hb] at h
          have := ih _ _ h
          rw [this, List.map_cons, List.prod_cons, dictEnv, hb]
          push_cast
          simp only [Option.getD_some]; ring
    have := key _ _ _ h
    simpa [VName.val, longEnv] using this

theorem varsToVector_ok {vals : Dict Name ℚ} : ∀ {names : List VName} {v : List ℚ}, varsToVector names vals = .ok v →
    v.length = names.length ∧ ∀ i n, names[i]? = some n → ((v.getD i 0 : ℚ) : ℝ) = n.val (dictEnv vals) := by
  intro names
  induction names with
  | nil => intro v h; injection h with h; subst h; exact ⟨rfl, by simp⟩
  | cons n names ih =>
    intro v h
    rw [varsToVector] at h
    obtain ⟨c, h1, h⟩ := Except.bind_ok_iff.1 h
    obtain ⟨cs, h2, h⟩ := Except.bind_ok_iff.1 h
    injection h with h
    subst h
    obtain ⟨e1, e2⟩ := ih h2
    refine ⟨by simp [e1], ?_⟩
    rintro (_ | i) m hi
    · simp only [List.getElem?_cons_zero, Option.some.injEq] at hi
      subst hi
      exact evalMonomial_ok h1
    · simpa using e2 i m (by simpa using hi)

/-- the monomials followed by the multipliers -/
def fixVec (v : List ℚ) (s : QSizes) (σ : ℕ → ℕ → ℕ → ℝ) (i : ℕ) : ℝ := if i < s.v then (v.getD i 0 : ℚ) else σ 0 (i - s.v) 0

section
variable {v : List ℚ} {σ : ℕ → ℕ → ℕ → ℝ}

theorem objAt_eq {m : Mat ℚ} (hm : m.cols = q.s.v) (k : ℕ) : ((objAt m v k : ℚ) : ℝ) = linVal q.s m k (fixVec v q.s σ) := by
  rw [objAt, mul_at, linVal, hm]
  push_cast
  refine Finset.sum_congr rfl fun j hj => ?_
  rw [fixVec, if_pos (Finset.mem_range.1 hj)]; rfl

theorem sumAt_eq {m : ℕ → Mat ℚ} (hm : ∀ k, (m k).cols = q.s.v) {d k : ℕ} :
    (((lamNu (q.s.nI + q.s.nE)).T.mul (sumAt m (q.s.nI + q.s.nE) d v).lift).at_ 0 k).eval σ = bilVal q.s (m k) (fixVec v q.s σ) := by
  have : ((((lamNu (q.s.nI + q.s.nE)).T.mul (sumAt m (q.s.nI + q.s.nE) d v).lift).ev σ).at_ 0 k) = bilVal q.s (m k) (fixVec v q.s σ) := by
    rw [Mat.ev_mul, mul_at, bilVal]
    refine Finset.sum_congr rfl fun i _ => ?_
    have e : (((sumAt m (q.s.nI + q.s.nE) d v).lift).ev σ).at_ i k = (((((m k).mul (Mat.ofList v)).at_ i 0 : ℚ)) : ℝ) := rfl
    rw [e, mul_at, hm]
    push_cast
    rw [Finset.mul_sum]
    refine Finset.sum_congr rfl fun j hj => ?_
    have hj := Finset.mem_range.1 hj
    rw [fixVec, if_neg (by omega), fixVec, if_pos hj, Nat.add_sub_cancel_left]
    show σ 0 i 0 * ((m k).at_ i j * (v.getD j 0 : ℚ)) = _
    ring
  exact this

end

/-- feasible points of the program at fixed parameters -/
theorem fixedSdpWith_iff (hC : C.Lawful) (hp : params.Nodup) (hq : qData C sm dimG dimF params = .ok q) {ents : List (SpKey × FG)} {obj : FG}
    (pr : sm.Prepared ents obj) {vals : Dict Name ℚ} {S : Sdp} (h : fixedSdpWith q dimG dimF vals = .ok S) (σ : ℕ → ℕ → ℕ → ℝ) :
    S.Sat σ ↔ IsPSD dimG (σ 1) ∧ DualFeasible sm dimG dimF (dictEnv vals) (fun key => σ 0 ((Dict.keys sm.spExp).idxOf key) 0) (σ 1) := by
  rw [fixedSdpWith] at h
  obtain ⟨v, h1, h⟩ := Except.bind_ok_iff.1 h
  split at h
  · cases h
  injection h with h
  subst h
  obtain ⟨cs, co, fr⟩ := qData_inv hq
  have sh := fr.shaped
  have hs : q.s = ⟨q.tab.names.length, sm.nI, sm.nE, dimG⟩ := fr.s
  have hsv : q.s.v = q.tab.names.length := by rw [hs]
  obtain ⟨hlv, hval⟩ := varsToVector_ok h1
  have hm : Monos q.tab.names (fixVec v q.s σ) (dictEnv vals) := by
    intro i n hi
    have hlt := (List.getElem?_eq_some_iff.1 hi).1
    rw [fixVec, if_pos (by omega)]
    exact hval i n hi
  set mult : SpKey → ℝ := fun key => σ 0 ((Dict.keys sm.spExp).idxOf key) 0 with hmult
  have hidx : ∀ (k : ℕ) (key : SpKey) m, ents[k]? = some (key, m) → (Dict.keys sm.spExp).idxOf key = k := by
    intro k key m hk
    have hlt := (List.getElem?_eq_some_iff.1 hk).1
    have : (Dict.keys sm.spExp)[k]? = some key := by
      rw [pr.sp, Dict.keys_append, List.getElem?_append_left (by simpa [Dict.keys] using hlt), Dict.keys, List.getElem?_map, hk]; rfl
    obtain ⟨g1, g2⟩ := List.getElem?_eq_some_iff.1 this
    have := pr.nodup.idxOf_getElem k g1
    rwa [g2] at this
  have hmu : ∀ (k : ℕ) (key : SpKey) m, ents[k]? = some (key, m) → fixVec v q.s σ (q.tab.names.length + k) = mult key := by
    intro k key m hk
    rw [fixVec, if_neg (by omega), hmult, hsv, Nat.add_sub_cancel_left]
    simp only
    rw [hidx k key m hk]
  simp only [Sdp.Sat, List.mem_singleton, forall_eq, List.forall_mem_append, List.forall_mem_map, List.mem_range]
  refine and_congr_right fun _ => ?_
  have hF : ∀ k < dimF, ((fixEqF q dimF v k).Holds σ ↔ sm.dualF (dictEnv vals) mult k - sm.objF (dictEnv vals) k = 0) := by
    intro k hk
    have := eqF_value hC hp fr pr hm hmu hk
    rw [fixEqF, holds_eq_iff, sumAt_eq sh.sumFc]
    show ((objAt q.objF v k : ℚ) : ℝ) = _ ↔ _
    rw [objAt_eq sh.objF (σ := σ)]
    constructor <;> intro hh <;> linarith
  have hG : ∀ i < dimG, ∀ j < dimG, ((fixEqG q dimG v (i * dimG + j)).Holds σ ↔ sm.dualG (dictEnv vals) mult i j - sm.objG (dictEnv vals) i j = σ 1 i j) := by
    intro i hi j hj
    have := eqG_value hC hp fr pr hm hmu hi hj
    rw [fixEqG, holds_eq_iff, sumAt_eq sh.sumGc]
    have e1 : (i * dimG + j) / dimG = i := by
      rw [mul_comm, Nat.mul_add_div (by omega), Nat.div_eq_of_lt hj, add_zero]
    have e2 : (i * dimG + j) % dimG = j := by
      rw [mul_comm, Nat.mul_add_mod, Nat.mod_eq_of_lt hj]
    rw [e1, e2]
    show ((objAt q.objG v (i * dimG + j) : ℚ) : ℝ) + σ 1 i j = _ ↔ _
    rw [objAt_eq sh.objG (σ := σ)]
    constructor <;> intro hh <;> linarith
  have hnI : q.s.nI = sm.nI := by rw [hs]
  constructor
  · rintro ⟨⟨c1, c2⟩, c3⟩
    refine ⟨?_, fun k hk => (hF k hk).1 (c2 k hk), fun i hi j hj => (hG i hi j hj).1 (c3 _ ?_)⟩
    · intro a b c hmem
      rw [pr.sp, Dict.keys_append, List.mem_append] at hmem
      rcases hmem with hmem | hmem
      · obtain ⟨⟨key, m⟩, hmem, hkey⟩ := List.mem_map.1 hmem
        simp only at hkey
        subst hkey
        obtain ⟨k, hk⟩ := List.getElem?_of_mem hmem
        have := c1 k (by rw [hnI]; exact (pr.ineq k _ _ hk).2 ⟨_, _, _, rfl⟩)
        rw [holds_ge_iff, CExp.eval_zero] at this
        simp only [hmult]
        rw [hidx k _ _ hk]
        exact this
      · simp at hmem
    · calc i * dimG + j < i * dimG + dimG := by omega
        _ = (i + 1) * dimG := by ring
        _ ≤ dimG * dimG := Nat.mul_le_mul_right _ hi
  · intro d
    refine ⟨⟨fun i hi => ?_, fun k hk => (hF k hk).2 (d.F k hk)⟩, fun k hk => ?_⟩
    · rw [holds_ge_iff, CExp.eval_zero]
      rw [hnI] at hi
      have hlen := pr.len
      have hk : ents[i]? = some ents[i] := List.getElem?_eq_getElem (by omega)
      obtain ⟨a, b, c, hkey⟩ := (pr.ineq i _ _ hk).1 hi
      have := d.nonneg a b c (by
        rw [← hkey, pr.sp, Dict.keys_append]
        exact List.mem_append_left _ (List.mem_map.2 ⟨_, List.getElem_mem _, rfl⟩))
      simp only [hmult] at this
      rw [← hkey, hidx i _ _ hk] at this
      exact this
    · have hpos : 0 < dimG := by
        rcases Nat.eq_zero_or_pos dimG with h0 | h0
        · subst h0; omega
        · exact h0
      have h1 : k / dimG < dimG := Nat.div_lt_of_lt_mul hk
      have h2 : k % dimG < dimG := Nat.mod_lt _ hpos
      have := (hG _ h1 _ h2).2 (d.G _ h1 _ h2)
      rwa [mul_comm, Nat.div_add_mod] at this

end Verif
