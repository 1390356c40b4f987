import Verif.Proofs.SymMats
import Verif.Proofs.NoCC
import Verif.Proofs.Names
import Verif.Proofs.Clean
import Verif.Props.Represent

/-!
# C10, C13-C17: the matrices handed to the solvers
-/

namespace Verif
open Heap

variable {C : CAS} {h h0 h' : Heap} {r : Regs} {prog : List Instr} {sm : SymMats}

theorem decl_eq_leafFnIds {C : CAS} {r : Regs} {h : Heap} (i : Inv C r h) : leafFnIds h = r.decl := i.decl.symm

theorem fnsReady (hC : C.Lawful) (hr : runProblem C prog h0 = .ok (r, h)) (hs : Solvable r h) : FnsReady h (leafFnIds h) := by
  have i := reached_inv hC hr
  intro f hf
  have hfl : f ∈ h.fnList := (List.mem_filter.1 hf).1
  obtain ⟨o, ho, -⟩ := i.wf.fn f hfl
  have := hs f (by rw [← decl_eq_leafFnIds i]; exact hf) o ho
  exact ⟨hfl, o, ho, ⟨this.1, this.2⟩, problem_noCC hr f hfl o ho⟩

/-- the translation of a problem always succeeds and does what `Translates` says -/
theorem translate_ok (hC : C.Lawful) (hr : runProblem C prog h0 = .ok (r, h)) (hs : Solvable r h) (hm : r.metric ≠ none) :
    ∃ sm h', problemMatrices C r h = .ok (sm, h') ∧ Translates C h r sm h' := by
  have i := reached_inv hC hr
  obtain ⟨e, he⟩ := Option.ne_none_iff_exists'.1 hm
  exact problemMatrices_spec hC i.wf i.cons he (i.metric e (by simp [he])) (fnsReady hC hr hs)

theorem translate_of (hC : C.Lawful) (hr : runProblem C prog h0 = .ok (r, h)) (hs : Solvable r h)
    (ht : problemMatrices C r h = .ok (sm, h')) : Translates C h r sm h' := by
  by_cases hm : r.metric = none
  · exfalso
    have i := reached_inv hC hr
    obtain ⟨acc1, e1, x1⟩ := extraLoop_spec hC i.wf r.cons [] _ (ExtraOk.nil h) i.cons
    change symbolicMatrices C r (leafFnIds h) h.ptCounter h.exCounter h = _ at ht
    rw [symbolicMatrices, M.bind_of_ok e1] at ht
    obtain ⟨a2, h2, -, ht⟩ := M.bind_ok_iff.1 ht
    obtain ⟨-, h3, -, ht⟩ := M.bind_ok_iff.1 ht
    obtain ⟨a4, h4, e4, ht⟩ := M.bind_ok_iff.1 ht
    rw [hm] at e4
    simp [M.ofOption] at e4
  · obtain ⟨sm', h1, e1, t⟩ := translate_ok hC hr hs hm
    rw [e1] at ht
    injection ht with ht
    injection ht with h1 h2
    subst h1; subst h2; exact t

theorem mem_fnKeys_of {ns : List ℕ} : ∀ {s k n i j : ℕ}, ns[k]? = some n → (i, j) ∈ offDiag n → SpKey.tup 0 (s + k) i j ∈ fnKeys ns s := by
  induction ns with
  | nil => intro s k n i j h; simp at h
  | cons n0 ns ih =>
    intro s k n i j hk hij
    rw [fnKeys, List.mem_append]
    cases k with
    | zero => simp only [List.getElem?_cons_zero, Option.some.injEq] at hk; subst hk; exact Or.inl (List.mem_map.2 ⟨(i, j), hij, rfl⟩)
    | succ k => right; rw [show s + (k + 1) = s + 1 + k by omega]; exact ih (by simpa using hk) hij

theorem mem_expectedKeys_pair {cons : List (ExId × Kind)} {ns : List ℕ} {k n i j : ℕ} (hk : ns[k]? = some n) (hij : (i, j) ∈ offDiag n) :
    SpKey.tup 0 (fnShift cons + k) i j ∈ expectedKeys cons ns := by
  rw [expectedKeys]
  exact List.mem_append_left _ (List.mem_append_left _ (List.mem_append_right _ (mem_fnKeys_of hk hij)))

theorem Translates.get (t : Translates C h r sm h') {key : SpKey} (hk : key ∈ expectedKeys r.cons ((leafFnIds h).map (nSamples h))) :
    ∃ m, sm.spExp.get? key = some m ∧ Entry h' r (leafFnIds h) key m := by
  rw [← t.keys] at hk
  obtain ⟨m, hm⟩ := Option.isSome_iff_exists.1 ((Dict.get?_isSome_iff _ _).2 hk)
  exact ⟨m, hm, t.entries _ (Dict.mem_of_get? hm)⟩

/-- the entry of a pair of samples -/
theorem entry_pair_inv {leafs : List FnId} {k i j f : ℕ} {m : FG} {o : FnObj} (hij : i ≠ j) (hf : leafs[k]? = some f) (ho : h.fns[f]? = some o)
    (en : Entry h r leafs (.tup 0 (fnShift r.cons + k) i j) m) :
    ∃ ti tj e, o.points[i]? = some ti ∧ o.points[j]? = some tj ∧ e ∈ o.classCons ∧ IsIneq h o.cls ti tj e ∧ MatOf h e m := by
  generalize hkey : SpKey.tup 0 (fnShift r.cons + k) i j = key at en
  cases en with
  | ineq hi hm =>
    injection hkey with _ h2 h3 h4
    have hpos : (ineqCons r.cons).length ≥ 1 := by have := (List.getElem?_eq_some_iff.1 hi).1; omega
    rw [fnShift, if_pos hpos] at h2
    omega
  | pair hf' ho' hij' hi hj hc he hm =>
    injection hkey with _ h2 h3 h4
    have hkk : k = _ := Nat.add_left_cancel h2
    subst hkk; subst h3; subst h4
    rw [hf] at hf'; cases hf'
    rw [ho] at ho'; cases ho'
    exact ⟨_, _, _, hi, hj, hc, he, hm⟩
  | eq hi hm => injection hkey with h1; omega
  | obj => simp at hkey

/-- **C10.** When a problem built by any program is translated for a solver, the `k`-th declared function, if it has `n` (pairwise
distinct) samples, gets exactly `n(n-1)` class constraints, and the matrix stored for indices `(i, j)`, `i ≠ j`, is the matrix of a
class constraint whose value is the interpolation inequality of the ordered pair (sample `i`, sample `j`) of the class of the function. -/
theorem C10_classConstraints (hC : C.Lawful) (hr : runProblem C prog h0 = .ok (r, h)) (hs : Solvable r h)
    (ht : problemMatrices C r h = .ok (sm, h')) {k f : ℕ} {o : FnObj} (hf : r.decl[k]? = some f) (ho : h.fns[f]? = some o) :
    ∃ es : List ExId, es.length = o.points.length * (o.points.length - 1) ∧ h'.fns[f]? = some { o with classCons := es } ∧
      ∀ (i j : ℕ) (ti tj : Triplet), i ≠ j → o.points[i]? = some ti → o.points[j]? = some tj →
        ∃ e ∈ es, ∃ m, IsIneq h' o.cls ti tj e ∧ MatOf h' e m ∧ sm.spExp.get? (.tup 0 (fnShift r.cons + k) i j) = some m := by
  have t := translate_of hC hr hs ht
  have hl := decl_eq_leafFnIds (reached_inv hC hr)
  have hf' : (leafFnIds h)[k]? = some f := by rw [hl]; exact hf
  obtain ⟨es, hlen, hes⟩ := t.classCons f (List.mem_of_getElem? hf') o ho
  refine ⟨es, hlen, hes, ?_⟩
  intro i j ti tj hij hi hj
  have hns : ((leafFnIds h).map (nSamples h))[k]? = some o.points.length := by simp [hf', nSamples, ho]
  obtain ⟨m, hm, en⟩ := t.get (mem_expectedKeys_pair (i := i) (j := j) hns
    (mem_offDiag.2 ⟨(List.getElem?_eq_some_iff.1 hi).1, (List.getElem?_eq_some_iff.1 hj).1, hij⟩))
  obtain ⟨ti', tj', e, h1, h2, h3, h4, h5⟩ := entry_pair_inv hij hf' hes en
  simp only at h1 h2 h3 h4
  rw [hi] at h1; rw [hj] at h2; cases h1; cases h2
  exact ⟨e, h3, m, h4, h5, hm⟩

/-- **C13.** Take any Expression `e` a script holds.  Its translation to matrices succeeds, and for every inner product space, leaf
points `φ`, leaf values `ψ` and parameter values `env`: `<F, Fweights> + <G, Gweights>` with `F` the vector of leaf values and `G`
the Gram matrix of the leaf points is the value of the expression, if its constant term is 0; `Gweights` is symmetric. -/
theorem C13_matrix (hC : C.Lawful) (hr : runProblem C prog h0 = .ok (r, h)) {e : ExId} (he : e ∈ r.exs) :
    ∃ m, exprToMatrix C e h.ptCounter h.exCounter h = .ok (m, h) ∧ m.Symmetric ∧
      ∀ {E : Type} [NormedAddCommGroup E] [InnerProductSpace ℝ E] (env : Name → ℝ) (φ : PtId → E) (ψ : ExId → ℝ),
        (h.exConst e).eval env = 0 → m.val env h.exCounter h.ptCounter (h.fvec ψ) (h.gram φ) = h.exVal env φ ψ e := by
  have i := reached_inv hC hr
  obtain ⟨m, h1, h2⟩ := exprToMatrix_spec hC i.wf (i.exs e he)
  refine ⟨m, h1, h2.symm, ?_⟩
  intro E _ _ env φ ψ h0
  rw [← h2.val, h0, add_zero]

theorem exConst_of_clean {V : Set Name} (hc : h.Clean V) (e : ExId) (env : Name → ℝ) : (h.exConst e).eval env = 0 := by
  refine hc.exConst e env _ ?_ ?_
  · intro o ho; simp [exConst, ho]
  · intro ho; simp [exConst, ho]

/-- **C13**, when there is no constant: a program that adds no number (except 0) to Expressions makes only expressions without constant
term. -/
theorem C13_noConst (hC : C.Lawful) {V : Set Name} (hr : runProblem C prog Heap.empty = .ok (r, h)) (hp : ∀ i ∈ prog, i.Clean V)
    (e : ExId) (env : Name → ℝ) : (h.exConst e).eval env = 0 :=
  exConst_of_clean (keeps_prog hC prog _ hp _ _ _ (clean_reset clean_empty) hr) e env

/-- **C14** (violated). For every Expression a script holds the matrix form differs from the value by exactly the constant term. -/
theorem C14_dropped (hC : C.Lawful) (hr : runProblem C prog h0 = .ok (r, h)) {e : ExId} (he : e ∈ r.exs) {m : FG}
    (hm : exprToMatrix C e h.ptCounter h.exCounter h = .ok (m, h))
    {E : Type} [NormedAddCommGroup E] [InnerProductSpace ℝ E] (env : Name → ℝ) (φ : PtId → E) (ψ : ExId → ℝ) :
    h.exVal env φ ψ e - m.val env h.exCounter h.ptCounter (h.fvec ψ) (h.gram φ) = (h.exConst e).eval env := by
  have i := reached_inv hC hr
  obtain ⟨m', h1, h2⟩ := exprToMatrix_spec hC i.wf (i.exs e he)
  rw [h1] at hm
  injection hm with hm; injection hm with hm
  subst hm
  rw [← h2.val]; ring

/-- **C15.** Translation succeeds; the keys of the ordered dictionary are: one per extra inequality, one per ordered pair of different
samples of each declared function, one per equality, and the objective last (`expectedKeys`); they are distinct; the reported sizes are
the numbers of inequalities and equalities; every entry is the matrix that belongs to its key (`Entry`). -/
theorem C15_enumerate (hC : C.Lawful) (hr : runProblem C prog h0 = .ok (r, h)) (hs : Solvable r h) (hm : r.metric ≠ none) :
    ∃ sm h', problemMatrices C r h = .ok (sm, h') ∧
      sm.spExp.keys = expectedKeys r.cons (r.decl.map (nSamples h)) ∧
      sm.spExp.keys.Nodup ∧
      sm.nI = (ineqCons r.cons).length + (r.decl.map fun f => nSamples h f * (nSamples h f - 1)).sum ∧
      sm.nE = (eqCons r.cons).length ∧
      ∀ key m, sm.spExp.get? key = some m → Entry h' r r.decl key m := by
  obtain ⟨sm, h', e, t⟩ := translate_ok hC hr hs hm
  have hl := decl_eq_leafFnIds (reached_inv hC hr)
  refine ⟨sm, h', e, by rw [t.keys, hl], by rw [t.keys]; exact nodup_expectedKeys _ _, ?_, t.nE, ?_⟩
  · rw [t.nI, hl]
    have : ∀ ns s, (fnKeys ns s).length = (ns.map fun n => n * (n - 1)).sum := by
      intro ns
      induction ns with
      | nil => intro s; rfl
      | cons n ns ih => intro s; simp [fnKeys, ih, length_offDiag]
    rw [this, List.map_map]; rfl
  · intro key m hk
    rw [← hl]; exact t.entries _ (Dict.mem_of_get? hk)

/-- **C16** (violated). After a problem was translated once, translating it again raises AssertionError if and only if some declared
function has at least two samples; otherwise it succeeds. -/
theorem C16_twice (hC : C.Lawful) (hr : runProblem C prog h0 = .ok (r, h)) (hs : Solvable r h)
    (ht : problemMatrices C r h = .ok (sm, h')) :
    (problemMatrices C r h' = .error .assertion ↔ ∃ f ∈ r.decl, 2 ≤ nSamples h f) ∧
    ((∃ v, problemMatrices C r h' = .ok v) ↔ ∀ f ∈ r.decl, nSamples h f ≤ 1) := by
  have t := translate_of hC hr hs ht
  have i := reached_inv hC hr
  have hl := decl_eq_leafFnIds i
  have hmet : ∃ e, r.metric = some e := by
    have hob : SpKey.obj ∈ sm.spExp.keys := by rw [t.keys, expectedKeys]; simp
    obtain ⟨m, hm⟩ := Option.isSome_iff_exists.1 ((Dict.get?_isSome_iff _ _).2 hob)
    have := t.entries _ (Dict.mem_of_get? hm)
    simp only at this
    cases this with
    | obj he _ => exact ⟨_, he⟩
  obtain ⟨e, he⟩ := hmet
  have := problemMatrices_again hC i.wf i.cons he (i.metric e (by simp [he])) (fnsReady hC hr hs) t
  rw [hl] at this
  rcases this with ⟨h1, sm2, h2, h3⟩ | ⟨⟨f, h1, h1'⟩, h2⟩
  · refine ⟨⟨fun hh => by rw [hh] at h3; simp at h3, ?_⟩, fun _ => h1, fun _ => ⟨_, h3⟩⟩
    rintro ⟨f, hf, hn⟩
    have := h1 f hf; omega
  · refine ⟨⟨fun _ => ⟨f, h1, h1'⟩, fun _ => h2⟩, ?_, ?_⟩
    · rintro ⟨v, hv⟩; rw [hv] at h2; simp at h2
    · intro hall; have := hall f h1; omega

/-- **C17.** The aggregated matrices are the sums over all constraints (all entries but the objective) of multiplier symbol times matrix,
for all values of the symbols, and different constraints have different multiplier symbols. -/
theorem C17_sum (hC : C.Lawful) (hr : runProblem C prog h0 = .ok (r, h)) (hs : Solvable r h)
    (ht : problemMatrices C r h = .ok (sm, h')) :
    ∃ (ents : List (SpKey × FG)) (obj : FG), sm.spExp = ents ++ [(SpKey.obj, obj)] ∧
      (∀ env : Name → ℝ,
        (∀ k, (sm.sum.F k).eval env = (ents.map fun en => env en.1.name * (en.2.F k).eval env).sum) ∧
        (∀ i j, (sm.sum.G i j).eval env = (ents.map fun en => env en.1.name * (en.2.G i j).eval env).sum)) ∧
      (ents.map fun en => en.1.name).Nodup := by
  have t := translate_of hC hr hs ht
  obtain ⟨ents, obj, he, hsum⟩ := t.sum
  refine ⟨ents, obj, he, ?_, ?_⟩
  · intro env
    refine ⟨fun k => ?_, fun i j => ?_⟩
    · rw [(hsum env).1]; simp [FG.zero]
    · rw [(hsum env).2]; simp [FG.zero]
  · have hk := t.keys
    have hnd := nodup_expectedKeys r.cons ((leafFnIds h).map (nSamples h))
    rw [← hk, he, Dict.keys_append] at hnd
    have hnd1 := (List.nodup_append.1 hnd).1
    have hform : ∀ key ∈ Dict.keys ents, ∃ a k i j, key = SpKey.tup a k i j ∧ a ≤ 1 := by
      intro key hkey
      have hne : key ≠ .obj := fun hh => (List.nodup_append.1 hnd).2.2 key hkey .obj (by simp) hh
      have hmem : key ∈ sm.spExp.keys := by rw [he, Dict.keys_append]; exact List.mem_append_left _ hkey
      rw [hk, expectedKeys] at hmem
      rcases List.mem_append.1 hmem with hm | hm
      · rcases List.mem_append.1 hm with hm | hm
        · rcases List.mem_append.1 hm with hm | hm
          · obtain ⟨i, -, rfl⟩ := List.mem_map.1 hm; exact ⟨0, _, _, _, rfl, by omega⟩
          · obtain ⟨k', i, j, hh, -⟩ := mem_fnKeys hm; exact ⟨0, _, _, _, hh, by omega⟩
        · obtain ⟨i, -, rfl⟩ := List.mem_map.1 hm; exact ⟨1, _, _, _, rfl, by omega⟩
      · rw [List.mem_singleton] at hm; exact absurd hm hne
    have : (ents.map fun en => en.1.name) = (Dict.keys ents).map SpKey.name := by simp [Dict.keys]
    rw [this]
    refine List.Nodup.map_on ?_ hnd1
    intro x hx y hy hxy
    obtain ⟨a, k, i, j, rfl, ha⟩ := hform x hx
    obtain ⟨a', k', i', j', rfl, ha'⟩ := hform y hy
    exact SpKey.name_inj ha ha' hxy

/-! ### Non-vacuity -/

instance (c : FnClass) : Decidable c.Computable := by cases c <;> simp only [FnClass.Computable] <;> infer_instance

/-- executable form of `Solvable` -/
def solvableB (r : Regs) (h : Heap) : Bool :=
  r.decl.all fun f => match h.fns[f]? with
    | some o => decide (o.cls.Computable ∧ o.points.Nodup)
    | none => true

theorem solvable_of_check (hc : solvableB r h = true) : Solvable r h := by
  intro f hf o ho
  have := List.all_eq_true.1 hc f hf
  simpa [ho] using this

/-- a function with three samples, two constraints and a metric -/
def probProg : List Instr :=
  [.declare (.smoothConvex (some 2)), .stationary 0, .initial, .oracle 0 2, .pt (.sub (.reg 2) (.scale (Sym.var "h") (.reg 3))),
   .oracle 0 4, .ex (.sub (.reg 2) (.reg 1)), .constr 0 .equality, .constr 2 .inequality, .metric 3]

/-- a run of the program that meets every hypothesis of C10, C15, C16 and C17: three samples, six class constraints, nine entries -/
theorem probProg_ok : ∃ r h sm h', runProblem refCAS probProg Heap.empty = .ok (r, h) ∧ Solvable r h ∧ r.metric ≠ none ∧
    problemMatrices refCAS r h = .ok (sm, h') ∧ r.decl.map (nSamples h) = [3] ∧ sm.spExp.length = 9 ∧ sm.nI = 7 ∧ sm.nE = 1 ∧
    problemMatrices refCAS r h' = .error .assertion := by
  have key : (match runProblem refCAS probProg Heap.empty with
      | .ok (r, h) => solvableB r h && decide (r.metric ≠ none) && decide (r.decl.map (nSamples h) = [3]) &&
        (match problemMatrices refCAS r h with
          | .ok (sm, h') => decide (sm.spExp.length = 9) && decide (sm.nI = 7) && decide (sm.nE = 1) &&
            (match problemMatrices refCAS r h' with | .error .assertion => true | _ => false)
          | .error _ => false)
      | .error _ => false) = true := by decide +kernel
  cases h1 : runProblem refCAS probProg Heap.empty with
  | error e => rw [h1] at key; simp at key
  | ok v =>
    obtain ⟨r, h⟩ := v
    rw [h1] at key
    simp only [Bool.and_eq_true, decide_eq_true_eq] at key
    obtain ⟨⟨⟨k1, k2⟩, k3⟩, key⟩ := key
    cases h2 : problemMatrices refCAS r h with
    | error e => rw [h2] at key; simp at key
    | ok v =>
      obtain ⟨sm, h'⟩ := v
      rw [h2] at key
      simp only [Bool.and_eq_true, decide_eq_true_eq] at key
      obtain ⟨⟨⟨k4, k5⟩, k6⟩, key⟩ := key
      refine ⟨r, h, sm, h', rfl, solvable_of_check k1, k2, h2, k3, k4, k5, k6, ?_⟩
      split at key
      · assumption
      · simp at key

/-- the hypothesis of `Solvable` that no sample is recorded twice cannot be dropped: with the same triple added twice
(`add_point` twice) the translation raises IndexError (finding) -/
theorem C10_duplicate : ∃ r h, runProblem refCAS
      [.declare (.convex false), .initial, .oracle 0 0, .addPoint 0 0 1 0, .ex (.sub (.reg 0) (.reg 0)), .metric 1] Heap.empty = .ok (r, h) ∧
    problemMatrices refCAS r h = .error .index := by
  have key : (match runProblem refCAS
      [.declare (.convex false), .initial, .oracle 0 0, .addPoint 0 0 1 0, .ex (.sub (.reg 0) (.reg 0)), .metric 1] Heap.empty with
      | .ok (r, h) => (match problemMatrices refCAS r h with | .error .index => true | _ => false)
      | .error _ => false) = true := by decide +kernel
  split at key
  · rename_i r h h1
    refine ⟨r, h, h1, ?_⟩
    split at key
    · assumption
    · simp at key
  · simp at key

end Verif
