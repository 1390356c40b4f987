import Verif.Spec.Denote
import Verif.Model.Dict
import Mathlib.Tactic.Abel
import Mathlib.Tactic.Module

namespace Verif
namespace Dict
variable {α β : Type} [DecidableEq α]

@[simp] theorem keys_nil : keys ([] : Dict α β) = [] := rfl
@[simp] theorem keys_cons (kv : α × β) (d : Dict α β) : keys (kv :: d) = kv.1 :: keys d := rfl
@[simp] theorem keys_append (d e : Dict α β) : keys (d ++ e) = keys d ++ keys e := by simp [keys]

@[simp] theorem get?_nil (k : α) : get? ([] : Dict α β) k = none := rfl
theorem get?_cons (kv : α × β) (d : Dict α β) (k : α) :
    get? (kv :: d) k = if kv.1 = k then some kv.2 else get? d k := by
  by_cases h : kv.1 = k <;> simp [get?, List.find?_cons, h]

theorem get?_isSome_iff (d : Dict α β) (k : α) : (get? d k).isSome ↔ k ∈ d.keys := by
  induction d with
  | nil => simp
  | cons kv d ih =>
    rw [get?_cons]
    by_cases h : kv.1 = k
    · simp [h]
    · simp [h, ih, Ne.symm h]

theorem has_iff (d : Dict α β) (k : α) : d.has k = true ↔ k ∈ d.keys := by
  simp [has, get?_isSome_iff]

theorem get?_eq_none_iff (d : Dict α β) (k : α) : get? d k = none ↔ k ∉ d.keys := by
  rw [← get?_isSome_iff]; cases get? d k <;> simp

theorem mem_of_get? {d : Dict α β} {k : α} {v : β} (h : get? d k = some v) : (k, v) ∈ d := by
  induction d with
  | nil => simp at h
  | cons kv d ih =>
    rw [get?_cons] at h
    by_cases hk : kv.1 = k
    · rw [if_pos hk] at h
      have hv : kv.2 = v := by simpa using h
      obtain ⟨a, b⟩ := kv
      simp at hk hv
      simp [hk, hv]
    · rw [if_neg hk] at h; exact List.mem_cons_of_mem _ (ih h)

theorem get?_of_mem {d : Dict α β} (hd : d.NodupKeys) {k : α} {v : β} (h : (k, v) ∈ d) : get? d k = some v := by
  induction d with
  | nil => simp at h
  | cons kv d ih =>
    rw [get?_cons]
    rw [NodupKeys, keys_cons, List.nodup_cons] at hd
    rcases List.mem_cons.1 h with h | h
    · subst h; simp
    · have : kv.1 ≠ k := by
        rintro rfl
        exact hd.1 (by simpa [keys] using ⟨v, h⟩)
      rw [if_neg this]; exact ih hd.2 h

theorem keys_set (d : Dict α β) (k : α) (v : β) :
    (d.set k v).keys = if d.has k then d.keys else d.keys ++ [k] := by
  unfold set
  split
  · simp only [keys, List.map_map]
    apply List.map_congr_left
    intro kv _
    by_cases h : kv.1 = k <;> simp [h]
  · simp

theorem nodup_set {d : Dict α β} (hd : d.NodupKeys) (k : α) (v : β) : (d.set k v).NodupKeys := by
  unfold NodupKeys
  rw [keys_set]
  split
  · exact hd
  · rename_i h
    have : k ∉ d.keys := by rw [← has_iff]; simpa using h
    exact List.nodup_append.2 ⟨hd, by simp, by
      intro a ha b hb; simp at hb; subst hb; rintro rfl; exact this ha⟩

theorem mem_keys_set (d : Dict α β) (k k' : α) (v : β) : k' ∈ (d.set k v).keys ↔ k' ∈ d.keys ∨ k' = k := by
  rw [keys_set]
  split
  · rename_i h
    rw [has_iff] at h
    constructor
    · exact Or.inl
    · rintro (h' | rfl) <;> assumption
  · simp

theorem get?_set (d : Dict α β) (k k' : α) (v : β) :
    (d.set k v).get? k' = if k' = k then some v else d.get? k' := by
  unfold set
  split
  · rename_i h
    have aux : ∀ e : Dict α β, get? (e.map (fun kv => if kv.1 = k then (k, v) else kv)) k' =
        if k' = k then (if k ∈ e.keys then some v else none) else e.get? k' := by
      intro e
      induction e with
      | nil => simp
      | cons kv e ih =>
        rw [List.map_cons, get?_cons, get?_cons, ih]
        by_cases h1 : kv.1 = k
        · subst h1
          by_cases h2 : k' = kv.1
          · subst h2; simp
          · simp [h2, Ne.symm h2]
        · by_cases h2 : k' = k
          · subst h2
            simp [h1, Ne.symm h1]
          · simp [h1, h2]
    rw [aux, if_pos ((has_iff _ _).1 h)]
  · rename_i h
    have hk : k ∉ d.keys := by rw [← has_iff]; simpa using h
    have aux : ∀ e : Dict α β, k ∉ e.keys → get? (e ++ [(k, v)]) k' = if k' = k then some v else e.get? k' := by
      intro e
      induction e with
      | nil =>
        intro _
        rw [List.nil_append, get?_cons]
        by_cases h2 : k' = k
        · simp [h2]
        · simp [h2, Ne.symm h2]
      | cons kv e ih =>
        intro hk
        simp at hk
        rw [List.cons_append, get?_cons, get?_cons, ih hk.2]
        by_cases h2 : k' = k
        · subst h2; simp [Ne.symm hk.1]
        · simp [h2]
    exact aux d hk

section den
variable {M : Type} [AddCommGroup M] [Module ℝ M] (ev : β → ℝ) (φ : α → M)

omit [DecidableEq α] in
@[simp] theorem den_nil : den ev φ ([] : Dict α β) = 0 := by simp [den]
omit [DecidableEq α] in
@[simp] theorem den_cons (kv : α × β) (d : Dict α β) :
    den ev φ (kv :: d) = ev kv.2 • φ kv.1 + den ev φ d := by simp [den]
omit [DecidableEq α] in
@[simp] theorem den_append (d e : Dict α β) : den ev φ (d ++ e) = den ev φ d + den ev φ e := by simp [den]

omit [DecidableEq α] in
theorem den_congr {d : Dict α β} {φ' : α → M} (h : ∀ k ∈ d.keys, φ k = φ' k) : den ev φ d = den ev φ' d := by
  unfold den
  congr 1
  apply List.map_congr_left
  intro kv hkv
  rw [h kv.1 (List.mem_map_of_mem hkv)]

theorem den_set_new {d : Dict α β} {k : α} (v : β) (h : k ∉ d.keys) :
    den ev φ (d.set k v) = den ev φ d + ev v • φ k := by
  have : d.has k = false := by rw [← Bool.not_eq_true, has_iff]; exact h
  simp [set, this]

theorem den_set_has {d : Dict α β} (hd : d.NodupKeys) {k : α} {w : β} (v : β) (h : d.get? k = some w) :
    den ev φ (d.set k v) = den ev φ d + (ev v - ev w) • φ k := by
  have hk : d.has k = true := by simp [has, h]
  simp only [set, hk, if_true]
  clear hk
  have aux : ∀ e : Dict α β, k ∉ e.keys →
      e.map (fun kv => if kv.1 = k then (k, v) else kv) = e := by
    intro e he
    conv_rhs => rw [← List.map_id e]
    apply List.map_congr_left
    intro kv hkv
    have : kv.1 ≠ k := by rintro rfl; exact he (List.mem_map_of_mem hkv)
    simp [this]
  induction d with
  | nil => simp at h
  | cons kv d ih =>
    rw [NodupKeys, keys_cons, List.nodup_cons] at hd
    rw [get?_cons] at h
    by_cases hk : kv.1 = k
    · subst hk
      simp at h; subst h
      rw [List.map_cons, aux d hd.1]
      simp only [if_true, den_cons]
      module
    · rw [if_neg hk] at h
      rw [List.map_cons, den_cons, ih hd.2 h, den_cons, if_neg hk]
      abel

/-- The loop of `merge_dict`. -/
theorem merge_loop (plus : β → β → β) (d1 : Dict α β) : ∀ (l m : Dict α β), l.NodupKeys → m.NodupKeys →
    (∀ k ∈ l.keys, (d1.has k = true ↔ k ∈ m.keys)) →
    let r := l.foldl (mergeStep plus d1) m
    r.NodupKeys ∧ (∀ k, k ∈ r.keys ↔ k ∈ m.keys ∨ k ∈ l.keys) ∧
      ((∀ a b, ev (plus a b) = ev a + ev b) → den ev φ r = den ev φ m + den ev φ l) := by
  intro l
  induction l with
  | nil => intro m _ hm _; exact ⟨hm, by simp, by simp⟩
  | cons kv l ih =>
    intro m hl hm hkeys
    rw [NodupKeys, keys_cons, List.nodup_cons] at hl
    have hkv := hkeys kv.1 (by simp)
    simp only [List.foldl_cons]
    -- the updated dictionary
    obtain ⟨m', hm'eq, hm'nd, hm'keys, hm'den⟩ : ∃ m' : Dict α β,
        mergeStep plus d1 m kv = m' ∧ m'.NodupKeys ∧ (∀ k, k ∈ m'.keys ↔ k ∈ m.keys ∨ k = kv.1) ∧
        ((∀ a b, ev (plus a b) = ev a + ev b) → den ev φ m' = den ev φ m + ev kv.2 • φ kv.1) := by
      refine ⟨_, rfl, ?_⟩
      by_cases h : d1.has kv.1 = true
      · have hmem := hkv.1 h
        obtain ⟨w, hw⟩ := Option.isSome_iff_exists.1 ((get?_isSome_iff m kv.1).2 hmem)
        simp only [mergeStep, h, if_true, hw]
        refine ⟨nodup_set hm _ _, fun k => mem_keys_set _ _ _ _, fun hp => ?_⟩
        rw [den_set_has ev φ hm _ hw, hp]
        congr 2; ring
      · have hmem : kv.1 ∉ m.keys := fun hh => h (hkv.2 hh)
        simp only [mergeStep, h]
        exact ⟨nodup_set hm _ _, fun k => mem_keys_set _ _ _ _, fun _ => den_set_new ev φ _ hmem⟩
    rw [hm'eq]
    have := ih m' hl.2 hm'nd (by
      intro k hk
      rw [hkeys k (List.mem_cons_of_mem _ hk), hm'keys]
      constructor
      · exact Or.inl
      · rintro (h | rfl)
        · exact h
        · exact absurd hk hl.1)
    obtain ⟨h1, h2, h3⟩ := this
    refine ⟨h1, fun k => ?_, fun hp => ?_⟩
    · rw [h2, hm'keys, keys_cons, List.mem_cons]; tauto
    · rw [h3 hp, hm'den hp, den_cons]; abel

theorem nodup_merge (plus : β → β → β) {d1 d2 : Dict α β} (h1 : d1.NodupKeys) (h2 : d2.NodupKeys) :
    (merge plus d1 d2).NodupKeys :=
  (merge_loop (M := ℝ) (fun _ => 0) (fun _ => 0) plus d1 d2 d1 h2 h1 (fun k _ => has_iff d1 k)).1

theorem mem_keys_merge (plus : β → β → β) {d1 d2 : Dict α β} (h1 : d1.NodupKeys) (h2 : d2.NodupKeys) (k : α) :
    k ∈ (merge plus d1 d2).keys ↔ k ∈ d1.keys ∨ k ∈ d2.keys :=
  (merge_loop (M := ℝ) (fun _ => 0) (fun _ => 0) plus d1 d2 d1 h2 h1 (fun k _ => has_iff d1 k)).2.1 k

/-- `merge_dict` denotes the sum. -/
theorem den_merge {plus : β → β → β} (hp : ∀ a b, ev (plus a b) = ev a + ev b) {d1 d2 : Dict α β}
    (h1 : d1.NodupKeys) (h2 : d2.NodupKeys) :
    den ev φ (merge plus d1 d2) = den ev φ d1 + den ev φ d2 :=
  (merge_loop ev φ plus d1 d2 d1 h2 h1 (fun k _ => has_iff d1 k)).2.2 hp

omit [DecidableEq α] in
theorem nodup_prune (z : β → Bool) {d : Dict α β} (h : d.NodupKeys) : (prune z d).NodupKeys :=
  List.Nodup.sublist (List.Sublist.map _ List.filter_sublist) h

omit [DecidableEq α] in
theorem mem_prune {z : β → Bool} {d : Dict α β} {kv : α × β} : kv ∈ prune z d ↔ kv ∈ d ∧ z kv.2 = false := by
  simp [prune]

omit [DecidableEq α] in
theorem keys_prune_subset (z : β → Bool) (d : Dict α β) {k : α} (h : k ∈ (prune z d).keys) : k ∈ d.keys := by
  simp only [keys, List.mem_map] at h ⊢
  obtain ⟨kv, hkv, rfl⟩ := h
  exact ⟨kv, (mem_prune.1 hkv).1, rfl⟩

omit [DecidableEq α] in
/-- `prune_dict` keeps the denotation. -/
theorem den_prune {z : β → Bool} (hz : ∀ v, z v = true → ev v = 0) (d : Dict α β) :
    den ev φ (prune z d) = den ev φ d := by
  induction d with
  | nil => simp [prune]
  | cons kv d ih =>
    unfold prune at ih ⊢
    rw [List.filter_cons]
    by_cases h : z kv.2 = true
    · simp [h, ih, hz _ h]
    · simp at h
      simp [h, ih]

omit [DecidableEq α] in
theorem prune_prune (z : β → Bool) (d : Dict α β) : prune z (prune z d) = prune z d := by
  simp [prune, List.filter_filter]

omit [DecidableEq α] in
@[simp] theorem keys_mapVals (f : β → β) (d : Dict α β) : (mapVals f d).keys = d.keys := by
  simp [mapVals, keys, Function.comp_def]

omit [DecidableEq α] in
theorem den_mapVals {f : β → β} {c : ℝ} (hf : ∀ v, ev (f v) = ev v * c) (d : Dict α β) :
    den ev φ (mapVals f d) = c • den ev φ d := by
  induction d with
  | nil => simp [mapVals]
  | cons kv d ih =>
    unfold mapVals at ih ⊢
    rw [List.map_cons, den_cons, ih, den_cons, hf, smul_add, smul_smul, mul_comm]

theorem multiply_inner (times plus : β → β → β) (ψ : α → α → ℝ) (kv1 : α × β)
    (ht : ∀ a b, ev (times a b) = ev a * ev b) (hp : ∀ a b, ev (plus a b) = ev a + ev b) :
    ∀ (l : Dict α β) (acc : Dict (α × α) β), acc.NodupKeys →
    let r := l.foldl (mulStep times plus kv1) acc
    r.NodupKeys ∧ (∀ p, p ∈ r.keys → p ∈ acc.keys ∨ (p.1 = kv1.1 ∧ p.2 ∈ l.keys)) ∧
    den ev (fun p => ψ p.1 p.2) r = den ev (fun p => ψ p.1 p.2) acc + ev kv1.2 * den ev (fun k => ψ kv1.1 k) l := by
  intro l
  induction l with
  | nil => intro acc h; exact ⟨h, fun p hp => Or.inl hp, by simp⟩
  | cons kv2 l ih =>
    intro acc hacc
    simp only [List.foldl_cons, mulStep]
    cases hg : acc.get? (kv1.1, kv2.1) with
    | some w =>
      simp only []
      obtain ⟨h1, h2, h3⟩ := ih (acc.set (kv1.1, kv2.1) (plus w (times kv1.2 kv2.2))) (nodup_set hacc _ _)
      refine ⟨h1, fun p hp' => ?_, ?_⟩
      · rcases h2 p hp' with h | h
        · rw [mem_keys_set] at h
          rcases h with h | h
          · exact Or.inl h
          · exact Or.inr ⟨by rw [h], by rw [h]; simp⟩
        · exact Or.inr ⟨h.1, List.mem_cons_of_mem _ h.2⟩
      · rw [h3, den_set_has ev _ hacc _ hg, hp, ht, den_cons]
        simp only [smul_eq_mul]; ring
    | none =>
      simp only []
      obtain ⟨h1, h2, h3⟩ := ih (acc.set (kv1.1, kv2.1) (times kv1.2 kv2.2)) (nodup_set hacc _ _)
      refine ⟨h1, fun p hp' => ?_, ?_⟩
      · rcases h2 p hp' with h | h
        · rw [mem_keys_set] at h
          rcases h with h | h
          · exact Or.inl h
          · exact Or.inr ⟨by rw [h], by rw [h]; simp⟩
        · exact Or.inr ⟨h.1, List.mem_cons_of_mem _ h.2⟩
      · rw [h3, den_set_new ev _ _ ((get?_eq_none_iff _ _).1 hg), ht, den_cons]
        simp only [smul_eq_mul]; ring

theorem multiply_outer (times plus : β → β → β) (ψ : α → α → ℝ)
    (ht : ∀ a b, ev (times a b) = ev a * ev b) (hp : ∀ a b, ev (plus a b) = ev a + ev b) (d2 : Dict α β) :
    ∀ (l : Dict α β) (acc : Dict (α × α) β), acc.NodupKeys →
    let r := l.foldl (fun acc kv1 =>
      d2.foldl (mulStep times plus kv1) acc) acc
    r.NodupKeys ∧ (∀ p, p ∈ r.keys → p ∈ acc.keys ∨ (p.1 ∈ l.keys ∧ p.2 ∈ d2.keys)) ∧
    den ev (fun p => ψ p.1 p.2) r =
      den ev (fun p => ψ p.1 p.2) acc + (l.map fun kv1 => ev kv1.2 * den ev (fun k => ψ kv1.1 k) d2).sum := by
  intro l
  induction l with
  | nil => intro acc h; exact ⟨h, fun p hp => Or.inl hp, by simp⟩
  | cons kv1 l ih =>
    intro acc hacc
    simp only [List.foldl_cons]
    obtain ⟨g1, g2, g3⟩ := multiply_inner ev times plus ψ kv1 ht hp d2 acc hacc
    obtain ⟨h1, h2, h3⟩ := ih _ g1
    refine ⟨h1, fun p hp' => ?_, ?_⟩
    · rcases h2 p hp' with h | h
      · rcases g2 p h with h | h
        · exact Or.inl h
        · exact Or.inr ⟨by rw [h.1]; simp, h.2⟩
      · exact Or.inr ⟨List.mem_cons_of_mem _ h.1, h.2⟩
    · rw [h3, g3, List.map_cons, List.sum_cons]; ring

theorem nodup_multiply (times plus : β → β → β) (d1 d2 : Dict α β) : (multiply times plus d1 d2).NodupKeys := by
  have : ∀ (l : Dict α β) (acc : Dict (α × α) β), acc.NodupKeys →
      (l.foldl (fun acc kv1 =>
      d2.foldl (mulStep times plus kv1) acc) acc).NodupKeys := by
    intro l
    induction l with
    | nil => intro acc h; exact h
    | cons kv1 l ih =>
      intro acc h
      apply ih
      have : ∀ (l2 : Dict α β) (acc : Dict (α × α) β), acc.NodupKeys → (l2.foldl (mulStep times plus kv1) acc).NodupKeys := by
        intro l2
        induction l2 with
        | nil => intro acc h; exact h
        | cons kv2 l2 ih2 =>
          intro acc h
          apply ih2
          unfold mulStep
          split <;> exact nodup_set h _ _
      exact this d2 acc h
  exact this d1 [] List.nodup_nil

theorem mem_keys_multiply (times plus : β → β → β) {d1 d2 : Dict α β} {p : α × α}
    (h : p ∈ (multiply times plus d1 d2).keys) : p.1 ∈ d1.keys ∧ p.2 ∈ d2.keys := by
  have inner : ∀ (kv1 : α × β) (l2 : Dict α β) (acc : Dict (α × α) β), ∀ p ∈ (l2.foldl (mulStep times plus kv1) acc).keys, p ∈ acc.keys ∨ (p.1 = kv1.1 ∧ p.2 ∈ l2.keys) := by
    intro kv1 l2
    induction l2 with
    | nil => intro acc p h; exact Or.inl h
    | cons kv2 l2 ih =>
      intro acc p h
      rcases ih _ p h with h | h
      · have h' : p ∈ acc.keys ∨ p = (kv1.1, kv2.1) := by
          unfold mulStep at h
          split at h <;> exact (mem_keys_set _ _ _ _).1 h
        rcases h' with h | h
        · exact Or.inl h
        · exact Or.inr ⟨by rw [h], by rw [h]; simp⟩
      · exact Or.inr ⟨h.1, List.mem_cons_of_mem _ h.2⟩
  have outer : ∀ (l : Dict α β) (acc : Dict (α × α) β), ∀ p ∈ (l.foldl (fun acc kv1 =>
      d2.foldl (mulStep times plus kv1) acc) acc).keys,
      p ∈ acc.keys ∨ (p.1 ∈ l.keys ∧ p.2 ∈ d2.keys) := by
    intro l
    induction l with
    | nil => intro acc p h; exact Or.inl h
    | cons kv1 l ih =>
      intro acc p h
      rcases ih _ p h with h | h
      · rcases inner kv1 d2 acc p h with h | h
        · exact Or.inl h
        · exact Or.inr ⟨by rw [h.1]; simp, h.2⟩
      · exact Or.inr ⟨List.mem_cons_of_mem _ h.1, h.2⟩
  rcases outer d1 [] p h with h | h
  · simp at h
  · exact h

/-- `multiply_dicts` denotes the double sum of products. -/
theorem den_multiply {times plus : β → β → β} (ht : ∀ a b, ev (times a b) = ev a * ev b)
    (hp : ∀ a b, ev (plus a b) = ev a + ev b) (ψ : α → α → ℝ) (d1 d2 : Dict α β) :
    den ev (fun p => ψ p.1 p.2) (multiply times plus d1 d2) =
      den ev (fun k1 => den ev (fun k2 => ψ k1 k2) d2) d1 := by
  have := (multiply_outer ev times plus ψ ht hp d2 d1 [] List.nodup_nil).2.2
  simp only [den_nil, zero_add] at this
  rw [multiply, this]
  rfl
end den

theorem eqB_den {M : Type} [AddCommGroup M] [Module ℝ M] (ev : β → ℝ) (φ : α → M) {veq : β → β → Bool}
    (hv : ∀ a b, veq a b = true → ev a = ev b) {d1 d2 : Dict α β} (h1 : d1.NodupKeys) (h2 : d2.NodupKeys)
    (h : eqB veq d1 d2 = true) : den ev φ d1 = den ev φ d2 := by
  simp only [eqB, Bool.and_eq_true, beq_iff_eq, List.all_eq_true] at h
  obtain ⟨hlen, hall⟩ := h
  induction d1 generalizing d2 with
  | nil =>
    have : d2 = [] := List.eq_nil_of_length_eq_zero (by simpa using hlen.symm)
    simp [this]
  | cons kv d1 ih =>
    rw [NodupKeys, keys_cons, List.nodup_cons] at h1
    have hkv := hall kv (by simp)
    split at hkv
    · rename_i w hw
      have hmem := mem_of_get? hw
      obtain ⟨s, t, rfl⟩ := List.append_of_mem hmem
      have hnd : NodupKeys (s ++ t) := by
        have hsub : (s ++ t).Sublist (s ++ (kv.1, w) :: t) :=
          List.Sublist.append_left (List.sublist_cons_self _ _) s
        exact List.Nodup.sublist (List.Sublist.map Prod.fst hsub) h2
      have hnot : kv.1 ∉ (keys s ++ keys t) := by
        unfold NodupKeys at h2
        rw [keys_append, keys_cons] at h2
        have := (List.nodup_middle.1 h2)
        exact (List.nodup_cons.1 this).1
      have := ih h1.2 hnd (by simp at hlen ⊢; omega) (by
        intro kv' hkv'
        have h' := hall kv' (List.mem_cons_of_mem _ hkv')
        have hne : kv'.1 ≠ kv.1 := by
          intro he; exact h1.1 (he ▸ List.mem_map_of_mem hkv')
        have : get? (s ++ (kv.1, w) :: t) kv'.1 = get? (s ++ t) kv'.1 := by
          clear h' hall ih hmem hw hnd h2 hnot hlen
          induction s with
          | nil => simp [get?_cons, Ne.symm hne]
          | cons a s ih => simp only [List.cons_append, get?_cons, ih]
        rw [this] at h'
        exact h')
      rw [den_cons, this, den_append, den_append, den_cons, hv _ _ hkv]
      abel
    · simp at hkv

theorem eqB_refl {veq : β → β → Bool} (hv : ∀ a, veq a a = true) {d : Dict α β} (h : d.NodupKeys) :
    eqB veq d d = true := by
  simp only [eqB, BEq.rfl, Bool.true_and, List.all_eq_true]
  intro kv hkv
  rw [get?_of_mem h (v := kv.2) (by simpa using hkv)]
  exact hv _

end Dict
end Verif
