import Verif.Model.RefCAS
import Mathlib.Algebra.BigOperators.Group.Finset.Basic
import Mathlib.Algebra.Order.BigOperators.Group.List

namespace Verif
namespace RefCAS

noncomputable def evalMon (env : Name → ℝ) (m : List Name) : ℝ := (m.map env).prod
noncomputable def evalP (env : Name → ℝ) (p : P) : ℝ := (p.map fun t => (t.2 : ℝ) * evalMon env t.1).sum

theorem evalP_addTerm (env) (m c) (p : P) : evalP env (addTerm m c p) = evalP env p + c * evalMon env m := by
  induction p with
  | nil => by_cases h : c = 0 <;> simp [addTerm, evalP, h]
  | cons t p ih =>
    obtain ⟨m', c'⟩ := t
    unfold addTerm
    split
    · rename_i h; subst h
      split
      · rename_i h
        have : (c : ℝ) = -c' := by
          have : c = -c' := by linarith
          rw [this]; push_cast; rfl
        simp [evalP, this]
      · simp [evalP]; ring
    · simp only [evalP, List.map_cons, List.sum_cons] at ih ⊢
      rw [ih]; ring

theorem evalP_add (env) (p q : P) : evalP env (add p q) = evalP env p + evalP env q := by
  unfold add
  induction q generalizing p with
  | nil => simp [evalP]
  | cons t q ih =>
    rw [List.foldl_cons, ih, evalP_addTerm]
    simp [evalP]; ring

theorem evalMon_mulMon (env) (a b) : evalMon env (mulMon a b) = evalMon env a * evalMon env b := by
  unfold evalMon mulMon
  rw [((List.perm_insertionSort (· ≤ ·) (a ++ b)).map env).prod_eq]
  simp

theorem evalP_mul_inner (env) (t : List Name × ℚ) (q acc : P) :
    evalP env (q.foldl (fun acc u => addTerm (mulMon t.1 u.1) (t.2 * u.2) acc) acc) =
      evalP env acc + (t.2 * evalMon env t.1) * evalP env q := by
  induction q generalizing acc with
  | nil => simp [evalP]
  | cons u q ih =>
    rw [List.foldl_cons, ih, evalP_addTerm, evalMon_mulMon]
    simp [evalP]; ring

theorem evalP_mul (env) (p q : P) : evalP env (mul p q) = evalP env p * evalP env q := by
  have : ∀ acc, evalP env (p.foldl (fun acc t => q.foldl (fun acc u => addTerm (mulMon t.1 u.1) (t.2 * u.2) acc) acc) acc)
      = evalP env acc + evalP env p * evalP env q := by
    induction p with
    | nil => intro acc; simp [evalP]
    | cons t p ih =>
      intro acc
      rw [List.foldl_cons, ih, evalP_mul_inner]
      simp [evalP]; ring
  rw [mul, this]; simp [evalP]

theorem evalP_norm (env) : ∀ e : Sym, evalP env (norm e) = e.eval env
  | .num c => by by_cases h : c = 0 <;> simp [norm, h, evalP, evalMon]
  | .var n => by simp [norm, evalP, evalMon]
  | .add a b => by simp [norm, evalP_add, evalP_norm env a, evalP_norm env b]
  | .mul a b => by simp [norm, evalP_mul, evalP_norm env a, evalP_norm env b]

structure Good (V : List Name) (p : P) : Prop where
  nodup : (p.map Prod.fst).Nodup
  ok : ∀ t ∈ p, t.2 ≠ 0 ∧ t.1.Pairwise (· ≤ ·) ∧ ∀ n ∈ t.1, n ∈ V

theorem mem_addTerm_keys {m c} {p : P} {k} (h : k ∈ (addTerm m c p).map Prod.fst) :
    k = m ∨ k ∈ p.map Prod.fst := by
  induction p with
  | nil =>
    unfold addTerm at h
    split at h <;> simp_all
  | cons t p ih =>
    obtain ⟨m', c'⟩ := t
    unfold addTerm at h
    split at h
    · split at h
      · right; exact List.mem_cons_of_mem _ h
      · right; exact h
    · simp only [List.map_cons, List.mem_cons] at h ⊢
      rcases h with h | h
      · exact Or.inr (Or.inl h)
      · rcases ih h with h | h
        · exact Or.inl h
        · exact Or.inr (Or.inr h)

theorem Good.addTerm {V} {p : P} (hp : Good V p) {m c} (hm : m.Pairwise (· ≤ ·)) (hv : ∀ n ∈ m, n ∈ V) :
    Good V (addTerm m c p) := by
  induction p with
  | nil =>
    unfold RefCAS.addTerm
    split
    · exact hp
    · exact ⟨by simp, by simp_all⟩
  | cons t p ih =>
    obtain ⟨m', c'⟩ := t
    have hnd := hp.nodup
    rw [List.map_cons, List.nodup_cons] at hnd
    have hp' : Good V p := ⟨hnd.2, fun t ht => hp.ok t (List.mem_cons_of_mem _ ht)⟩
    unfold RefCAS.addTerm
    split
    · split
      · exact hp'
      · refine ⟨hp.nodup, ?_⟩
        intro t ht
        rcases List.mem_cons.1 ht with rfl | ht
        · exact ⟨by assumption, (hp.ok (m', c') (by simp)).2⟩
        · exact hp'.ok t ht
    · rename_i hne
      have := ih hp'
      refine ⟨?_, ?_⟩
      · rw [List.map_cons, List.nodup_cons]
        refine ⟨fun h => ?_, this.nodup⟩
        rcases mem_addTerm_keys h with h | h
        · exact hne h
        · exact hnd.1 h
      · intro t ht
        rcases List.mem_cons.1 ht with rfl | ht
        · exact hp.ok _ (by simp)
        · exact this.ok t ht

theorem Good.mono {V W} {p : P} (h : Good V p) (hVW : ∀ n ∈ V, n ∈ W) : Good W p :=
  ⟨h.nodup, fun t ht => ⟨(h.ok t ht).1, (h.ok t ht).2.1, fun n hn => hVW n ((h.ok t ht).2.2 n hn)⟩⟩

theorem Good.add {V} {p q : P} (hp : Good V p) (hq : ∀ t ∈ q, t.1.Pairwise (· ≤ ·) ∧ ∀ n ∈ t.1, n ∈ V) :
    Good V (add p q) := by
  unfold RefCAS.add
  induction q generalizing p with
  | nil => exact hp
  | cons t q ih =>
    rw [List.foldl_cons]
    exact ih (hp.addTerm (hq t (by simp)).1 (hq t (by simp)).2) (fun t ht => hq t (List.mem_cons_of_mem _ ht))

theorem Good.mul {V} {p q : P} (hp : Good V p) (hq : Good V q) : Good V (mul p q) := by
  unfold RefCAS.mul
  have : ∀ (l : P) (acc : P), Good V acc → (∀ t ∈ l, ∀ n ∈ t.1, n ∈ V) →
      Good V (l.foldl (fun acc t => q.foldl (fun acc u => RefCAS.addTerm (mulMon t.1 u.1) (t.2 * u.2) acc) acc) acc) := by
    intro l
    induction l with
    | nil => intro acc h _; exact h
    | cons t l ih =>
      intro acc hacc hl
      rw [List.foldl_cons]
      refine ih _ ?_ (fun t ht => hl t (List.mem_cons_of_mem _ ht))
      have inner : ∀ (l2 : P) (acc : P), Good V acc → (∀ t ∈ l2, ∀ n ∈ t.1, n ∈ V) →
          Good V (l2.foldl (fun acc u => RefCAS.addTerm (mulMon t.1 u.1) (t.2 * u.2) acc) acc) := by
        intro l2
        induction l2 with
        | nil => intro acc h _; exact h
        | cons u l2 ih2 =>
          intro acc hacc hl2
          rw [List.foldl_cons]
          refine ih2 _ (hacc.addTerm (List.pairwise_insertionSort _ _) ?_) (fun t ht => hl2 t (List.mem_cons_of_mem _ ht))
          intro n hn
          unfold mulMon at hn
          rw [List.mem_insertionSort, List.mem_append] at hn
          rcases hn with hn | hn
          · exact hl t (by simp) n hn
          · exact hl2 u (by simp) n hn
      exact inner q acc hacc (fun t ht => (hq.ok t ht).2.2)
  exact this p [] ⟨by simp, by simp⟩ (fun t ht => (hp.ok t ht).2.2)

theorem good_norm : ∀ e : Sym, Good e.vars (norm e)
  | .num c => by
      unfold norm; split
      · exact ⟨by simp, by simp⟩
      · exact ⟨by simp, by simp_all⟩
  | .var n => ⟨by simp [norm], by simp [norm, Sym.vars]⟩
  | .add a b => by
      have ha := (good_norm a).mono (W := (Sym.add a b).vars) (by intro n hn; simp [Sym.vars, hn])
      have hb := (good_norm b).mono (W := (Sym.add a b).vars) (by intro n hn; simp [Sym.vars, hn])
      exact ha.add (fun t ht => (hb.ok t ht).2)
  | .mul a b => by
      have ha := (good_norm a).mono (W := (Sym.mul a b).vars) (by intro n hn; simp [Sym.vars, hn])
      have hb := (good_norm b).mono (W := (Sym.mul a b).vars) (by intro n hn; simp [Sym.vars, hn])
      exact ha.mul hb

theorem eval_monSym (env) (c : ℚ) : ∀ m, (monSym c m).eval env = c * evalMon env m
  | [] => by simp [monSym, evalMon]
  | n :: m => by
      have := eval_monSym env c m
      simp only [monSym, Sym.eval_mul', this, Sym.eval_var, evalMon, List.map_cons, List.prod_cons]; ring

theorem eval_toSym (env) : ∀ p : P, (toSym p).eval env = evalP env p
  | [] => by simp [toSym, evalP]
  | [t] => by simp [toSym, evalP, eval_monSym]
  | t :: u :: p => by
      have := eval_toSym env (u :: p)
      rw [toSym, Sym.eval_add', this, eval_monSym]
      · simp [evalP]
      · simp

theorem vars_monSym (c : ℚ) : ∀ m n, n ∈ (monSym c m).vars → n ∈ m
  | [], n, h => by simp [monSym, Sym.vars] at h
  | k :: m, n, h => by
      simp only [monSym, Sym.vars, List.mem_append, List.mem_singleton] at h
      rcases h with h | h
      · exact List.mem_cons_of_mem _ (vars_monSym c m n h)
      · simp [h]

theorem vars_toSym : ∀ (p : P) n, n ∈ (toSym p).vars → ∃ t ∈ p, n ∈ t.1
  | [], n, h => by simp [toSym, Sym.vars] at h
  | [t], n, h => ⟨t, by simp, vars_monSym _ _ _ h⟩
  | t :: u :: p, n, h => by
      rw [toSym] at h
      · simp only [Sym.vars, List.mem_append] at h
        rcases h with h | h
        · exact ⟨t, by simp, vars_monSym _ _ _ h⟩
        · obtain ⟨s, hs, hn⟩ := vars_toSym (u :: p) n h
          exact ⟨s, List.mem_cons_of_mem _ hs, hn⟩
      · simp

theorem mem_gens {p : P} {n} : n ∈ gens p ↔ ∃ t ∈ p, n ∈ t.1 := by
  simp [gens]

theorem prod_count (env : Name → ℝ) (m : List Name) : ∀ g : List Name, g.Nodup → (∀ n ∈ m, n ∈ g) →
    (g.map fun n => env n ^ m.count n).prod = evalMon env m := by
  intro g
  induction m with
  | nil => intro _ _; simp [evalMon]
  | cons a m ih =>
    intro hg hm
    have ha : a ∈ g := hm a (by simp)
    have := ih hg (fun n hn => hm n (List.mem_cons_of_mem _ hn))
    rw [evalMon, List.map_cons, List.prod_cons]
    rw [evalMon] at this
    rw [← this]
    clear this ih hm
    induction g with
    | nil => simp at ha
    | cons b g ih =>
      rw [List.nodup_cons] at hg
      rw [List.map_cons, List.prod_cons, List.map_cons, List.prod_cons]
      by_cases hab : a = b
      · subst hab
        have : g.map (fun n => env n ^ (a :: m).count n) = g.map (fun n => env n ^ m.count n) := by
          apply List.map_congr_left
          intro n hn
          have : a ≠ n := by rintro rfl; exact hg.1 hn
          rw [List.count_cons_of_ne this]
        rw [this, List.count_cons_self, pow_succ]; ring
      · have hag : a ∈ g := by simpa [hab] using ha
        rw [ih hg.2 hag, List.count_cons_of_ne hab]; ring

end RefCAS

open RefCAS

theorem refCAS_lawful : refCAS.Lawful where
  simp_eval env e := by
    show (toSym (norm e)).eval env = _
    rw [eval_toSym, evalP_norm]
  simp_vars e n h := by
    obtain ⟨t, ht, hn⟩ := vars_toSym _ _ h
    exact ((good_norm e).ok t ht).2.2 n hn
  eqB_sound a b h env := by
    simp only [refCAS, Bool.or_eq_true, decide_eq_true_eq, List.isEmpty_iff] at h
    rcases h with rfl | h
    · rfl
    · have := evalP_norm env (a - b)
      rw [h] at this
      simp [evalP] at this
      linarith
  eqB_refl a := by simp [refCAS]
  poly_eval env e := by
    show (((norm e).map fun t => ((gens (norm e)).map fun n => (n, t.1.count n), t.2)).map (PolyTerm.eval env)).sum = _
    rw [← evalP_norm, evalP, List.map_map]
    congr 1
    apply List.map_congr_left
    intro t ht
    simp only [Function.comp, PolyTerm.eval, List.map_map]
    rw [← prod_count env t.1 (gens (norm e)) (List.nodup_dedup _) (fun n hn => mem_gens.2 ⟨t, ht, hn⟩)]
    rfl
  poly_vars e t ht p hp := by
    simp only [refCAS, List.mem_map] at ht
    obtain ⟨u, hu, rfl⟩ := ht
    simp only [List.mem_map] at hp
    obtain ⟨n, hn, rfl⟩ := hp
    obtain ⟨s, hs, hns⟩ := mem_gens.1 hn
    exact ((good_norm e).ok s hs).2.2 n hns
  poly_gens e := by
    refine ⟨gens (norm e), List.nodup_dedup _, ?_⟩
    intro t ht
    simp only [refCAS, List.mem_map] at ht
    obtain ⟨u, hu, rfl⟩ := ht
    simp [Function.comp_def]
  poly_nodup e := by
    show (((norm e).map fun t => ((gens (norm e)).map fun n => (n, t.1.count n), t.2)).map Prod.fst).Nodup
    have hg := good_norm e
    have : ((norm e).map fun t => ((gens (norm e)).map fun n => (n, t.1.count n), t.2)).map Prod.fst =
        ((norm e).map Prod.fst).map (fun m => (gens (norm e)).map fun n => (n, m.count n)) := by
      simp [Function.comp_def]
    rw [this]
    apply List.Nodup.map_on _ hg.nodup
    intro a ha b hb hab
    simp only [List.mem_map] at ha hb
    obtain ⟨s, hs, rfl⟩ := ha
    obtain ⟨t, ht, rfl⟩ := hb
    apply List.Perm.eq_of_pairwise (le := (· ≤ ·)) _ (hg.ok s hs).2.1 (hg.ok t ht).2.1
    · rw [List.perm_iff_count]
      intro n
      by_cases hn : n ∈ gens (norm e)
      · have := List.map_inj_left.1 hab n hn
        simpa using this
      · rw [List.count_eq_zero_of_not_mem, List.count_eq_zero_of_not_mem]
        · exact fun h => hn (mem_gens.2 ⟨t, ht, h⟩)
        · exact fun h => hn (mem_gens.2 ⟨s, hs, h⟩)
    · intro a b _ _ h1 h2; exact le_antisymm h1 h2
  poly_zero e t ht h := by
    simp only [refCAS, List.mem_map] at ht
    obtain ⟨u, hu, rfl⟩ := ht
    exact absurd h ((good_norm e).ok u hu).1

end Verif
