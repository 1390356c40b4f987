import Verif.Props.Relax
import Verif.Proofs.Nlp

/-!
# C36: bounds; C41: reciprocal parameters
-/

namespace Verif

variable {look : Name → Option (List CExp)} {σ : ℕ → ℕ → ℕ → ℝ}

theorem boundCons_iff {xs : List CExp} {b : Bound} : (∀ c ∈ boundCons xs b, c.Holds σ) ↔ ∀ e ∈ xs, b.Within (e.eval σ) := by
  refine ⟨fun h e he => ⟨fun u hu => ?_, fun l hl => ?_⟩, boundCons_holds⟩
  · exact h (.ge (.num u) e) (by rw [boundCons, hu]; exact List.mem_append_left _ (List.mem_map.2 ⟨e, he, rfl⟩))
  · exact h (.ge e (.num l)) (by rw [boundCons, hl]; exact List.mem_append_right _ (List.mem_map.2 ⟨e, he, rfl⟩))

/-- the variable the code bounds when it reaches the last name of `l`: that of the last known name -/
def lastKnown (look : Name → Option (List CExp)) (l : List Bound) : Option (List CExp) := l.reverse.findSome? fun b => look b.name

theorem lastKnown_append (l : List Bound) (b : Bound) : lastKnown look (l ++ [b]) = (look b.name).or (lastKnown look l) := by
  rw [lastKnown, List.reverse_append, List.reverse_singleton, List.singleton_append, List.findSome?_cons]
  cases look b.name <;> rfl

theorem addBounds_cons (b : Bound) (rest : List Bound) (this : Option (List CExp)) : addBounds look (b :: rest) this =
    if b.ub = none ∧ b.lb = none then addBounds look rest ((look b.name).or this)
    else match (look b.name).or this with
      | none => .error .unbound
      | some xs => (addBounds look rest ((look b.name).or this)).bind fun cs => .ok (boundCons xs b ++ cs) := by
  rw [addBounds]
  cases look b.name <;> cases this <;> rfl

theorem addBounds_iff : ∀ (bounds : List Bound) (this : Option (List CExp)) {cs : List Constr}, addBounds look bounds this = .ok cs →
    ((∀ c ∈ cs, c.Holds σ) ↔ ∀ pre b post, bounds = pre ++ b :: post → ∀ xs, (lastKnown look (pre ++ [b])).or this = some xs → ∀ e ∈ xs, b.Within (e.eval σ)) := by
  intro bounds
  induction bounds with
  | nil => intro this cs h; rw [addBounds] at h; injection h with h; subst h; simp
  | cons a bounds ih =>
    intro this cs h
    have hstep : ∀ pre b, (lastKnown look (a :: pre ++ [b])).or this =
        (lastKnown look (pre ++ [b])).or ((look a.name).or this) := by
      intro pre b
      have : lastKnown look (a :: pre ++ [b]) = (lastKnown look (pre ++ [b])).or (look a.name) := by
        rw [lastKnown, lastKnown, List.cons_append, List.reverse_cons, List.findSome?_append]
        simp
      rw [this, Option.or_assoc]
    have key : ∀ (P : List Bound → Bound → Prop), (∀ pre b post, a :: bounds = pre ++ b :: post → P pre b) ↔
        P [] a ∧ ∀ pre b post, bounds = pre ++ b :: post → P (a :: pre) b := by
      intro P
      refine ⟨fun h => ⟨h [] a bounds rfl, fun pre b post e => h (a :: pre) b post (by rw [e]; rfl)⟩, fun h pre b post e => ?_⟩
      cases pre with
      | nil => injection e with e1 e2; subst e1; exact h.1
      | cons c pre => injection e with e1 e2; subst e1; exact h.2 pre b post e2
    rw [key fun pre b => ∀ xs, (lastKnown look (pre ++ [b])).or this = some xs → ∀ e ∈ xs, b.Within (e.eval σ)]
    simp only [hstep]
    have h0 : (lastKnown look ([] ++ [a])).or this = (look a.name).or this := by
      rw [lastKnown_append, Option.or_assoc]; simp [lastKnown]
    rw [h0]
    rw [addBounds_cons] at h
    split at h
    · rename_i hb
      rw [← ih _ h]
      refine ⟨fun hh => ⟨fun xs _ e _ => ⟨fun u hu => ?_, fun l hl => ?_⟩, hh⟩, fun hh => hh.2⟩
      · rw [hb.1] at hu; cases hu
      · rw [hb.2] at hl; cases hl
    · split at h
      · cases h
      · rename_i xs hxs
        obtain ⟨cs', h1, h⟩ := Except.bind_ok_iff.1 h
        injection h with h
        subst h
        rw [forall_mem_append', boundCons_iff, ih _ h1, hxs]
        exact and_congr_left fun _ => ⟨fun hh xs' he => by injection he with he; subst he; exact hh, fun hh => hh xs rfl⟩

theorem addBounds_error : ∀ (bounds : List Bound) (this : Option (List CExp)), (∃ e, addBounds look bounds this = .error e) ↔
    ∃ pre b post, bounds = pre ++ b :: post ∧ ¬ (b.ub = none ∧ b.lb = none) ∧ (lastKnown look (pre ++ [b])).or this = none := by
  intro bounds
  induction bounds with
  | nil => intro this; simp [addBounds]
  | cons a bounds ih =>
    intro this
    have hstep : ∀ pre b, (lastKnown look (a :: pre ++ [b])).or this =
        (lastKnown look (pre ++ [b])).or ((look a.name).or this) := by
      intro pre b
      have : lastKnown look (a :: pre ++ [b]) = (lastKnown look (pre ++ [b])).or (look a.name) := by
        rw [lastKnown, lastKnown, List.cons_append, List.reverse_cons, List.findSome?_append]
        simp
      rw [this, Option.or_assoc]
    have key : (∃ pre b post, a :: bounds = pre ++ b :: post ∧ ¬ (b.ub = none ∧ b.lb = none) ∧ (lastKnown look (pre ++ [b])).or this = none) ↔
        (¬ (a.ub = none ∧ a.lb = none) ∧ ((look a.name).or this) = none) ∨
        ∃ pre b post, bounds = pre ++ b :: post ∧ ¬ (b.ub = none ∧ b.lb = none) ∧
          (lastKnown look (pre ++ [b])).or ((look a.name).or this) = none := by
      have h0 : (lastKnown look ([] ++ [a])).or this = (look a.name).or this := by
        rw [lastKnown_append, Option.or_assoc]; simp [lastKnown]
      constructor
      · rintro ⟨pre, b, post, e, h1, h2⟩
        cases pre with
        | nil => injection e with e1 e2; subst e1; rw [h0] at h2; exact Or.inl ⟨h1, h2⟩
        | cons c pre => injection e with e1 e2; subst e1; rw [hstep] at h2; exact Or.inr ⟨pre, b, post, e2, h1, h2⟩
      · rintro (⟨h1, h2⟩ | ⟨pre, b, post, e, h1, h2⟩)
        · exact ⟨[], a, bounds, rfl, h1, by rw [h0]; exact h2⟩
        · exact ⟨a :: pre, b, post, by rw [e]; rfl, h1, by rw [hstep]; exact h2⟩
    rw [key, ← ih, addBounds_cons]
    split
    · rename_i hb
      simp [hb]
    · rename_i hb
      split
      · rename_i hn
        simp [hb, hn]
      · rename_i xs hxs
        rw [hxs]
        simp only [reduceCtorEq, and_false, false_or]
        constructor
        · rintro ⟨e, he⟩
          cases hr : addBounds look bounds (some xs) with
          | error e' => exact ⟨e', rfl⟩
          | ok cs => rw [hr] at he; cases he
        · rintro ⟨e, he⟩
          rw [he]
          exact ⟨e, rfl⟩

/-- **C36**, known names: if every name is known, the bounds are accepted, and a point satisfies the constraints added iff all entries
of each named variable are within its bounds. -/
theorem C36_known {bounds : List Bound} (hk : ∀ b ∈ bounds, ∃ xs, look b.name = some xs) :
    ∃ cs, addBounds look bounds none = .ok cs ∧
      ((∀ c ∈ cs, c.Holds σ) ↔ ∀ b ∈ bounds, ∀ xs, look b.name = some xs → ∀ e ∈ xs, b.Within (e.eval σ)) := by
  have hl : ∀ pre b post, bounds = pre ++ b :: post → lastKnown look (pre ++ [b]) = look b.name := by
    intro pre b post e
    obtain ⟨xs, hx⟩ := hk b (by rw [e]; simp)
    rw [lastKnown_append, hx]; rfl
  cases h : addBounds look bounds none with
  | error e =>
    obtain ⟨pre, b, post, e1, -, h2⟩ := (addBounds_error bounds none).1 ⟨e, h⟩
    obtain ⟨xs, hx⟩ := hk b (by rw [e1]; simp)
    rw [hl pre b post e1, hx] at h2
    cases h2
  | ok cs =>
    refine ⟨cs, rfl, ?_⟩
    rw [addBounds_iff bounds none h]
    constructor
    · intro hh b hb xs hx
      obtain ⟨pre, post, e⟩ := List.append_of_mem hb
      exact hh pre b post e xs (by rw [hl pre b post e, hx]; rfl)
    · intro hh pre b post e xs hx
      rw [hl pre b post e, Option.or_none] at hx
      exact hh b (by rw [e]; simp) xs hx

/-- **C36**, what happens for all names: a point satisfies the constraints added iff each pair of bounds holds for the variable of the
last known name up to it.  So an unknown name bounds the variable named before it. -/
theorem C36_all {bounds : List Bound} {cs : List Constr} (h : addBounds look bounds none = .ok cs) :
    (∀ c ∈ cs, c.Holds σ) ↔ ∀ pre b post, bounds = pre ++ b :: post → ∀ xs, lastKnown look (pre ++ [b]) = some xs → ∀ e ∈ xs, b.Within (e.eval σ) := by
  rw [addBounds_iff bounds none h]
  simp only [Option.or_none]

/-- **C36**, violation: a bound with an unknown name after a known one is accepted and constrains the known variable. -/
theorem C36_violated {a b : Bound} {xs : List CExp} (ha : look a.name = some xs) (hb : look b.name = none) :
    ∃ cs, addBounds look [a, b] none = .ok cs ∧ ((∀ c ∈ cs, c.Holds σ) ↔ ∀ e ∈ xs, a.Within (e.eval σ) ∧ b.Within (e.eval σ)) := by
  have hl : lastKnown look [a] = some xs := by simp [lastKnown, ha]
  have hl2 : lastKnown look [a, b] = some xs := by simp [lastKnown, ha, hb]
  cases h : addBounds look [a, b] none with
  | error e =>
    obtain ⟨pre, c, post, e1, -, h2⟩ := (addBounds_error _ none).1 ⟨e, h⟩
    exfalso
    match pre, e1 with
    | [], e1 => injection e1 with e1 _; subst e1; rw [List.nil_append, hl] at h2; cases h2
    | [_], e1 =>
      injection e1 with e1 e2; injection e2 with e2 _; subst e1 e2
      rw [show [a] ++ [b] = [a, b] from rfl, hl2] at h2; cases h2
    | _ :: _ :: pre, e1 => injection e1 with _ e2; injection e2 with _ e3; simp at e3
  | ok cs =>
    refine ⟨cs, rfl, ?_⟩
    rw [C36_all h]
    constructor
    · intro hh e he
      exact ⟨hh [] a [b] rfl xs hl e he, hh [a] b [] rfl xs hl2 e he⟩
    · intro hh pre c post e1 ys hy e he
      match pre, e1 with
      | [], e1 => injection e1 with e1 _; subst e1; rw [List.nil_append, hl] at hy; injection hy with hy; subst hy; exact (hh e he).1
      | [_], e1 =>
        injection e1 with e1 e2; injection e2 with e2 _; subst e1 e2
        rw [show [a] ++ [b] = [a, b] from rfl, hl2] at hy; injection hy with hy; subst hy; exact (hh e he).2
      | _ :: _ :: pre, e1 => injection e1 with _ e2; injection e2 with _ e3; simp at e3

/-- **C36**, errors: building the bounds raises iff some entry with a bound comes before every known name; in particular it raises if
the first name is unknown and bounded. -/
theorem C36_error {bounds : List Bound} : (∃ e, addBounds look bounds none = .error e) ↔
    ∃ pre b post, bounds = pre ++ b :: post ∧ ¬ (b.ub = none ∧ b.lb = none) ∧ ∀ c ∈ pre ++ [b], look c.name = none := by
  rw [addBounds_error]
  simp only [Option.or_none, lastKnown, List.findSome?_eq_none_iff, List.mem_reverse]

/-- **C36** for `cvx_add_bounds`: unknown names are skipped, so each known name constrains its variable and nothing else. -/
theorem C36_cvx {tab : VTab} {s : QSizes} {bounds : List Bound} : (∀ c ∈ cvxBounds tab s bounds, c.Holds σ) ↔
    ∀ b ∈ bounds, ∀ xs, cvxLook tab s b.name = some xs → ∀ e ∈ xs, b.Within (e.eval σ) := by
  rw [cvxBounds]
  simp only [List.mem_flatMap]
  constructor
  · intro h b hb xs hx
    refine boundCons_iff.1 fun c hc => h c ⟨b, hb, ?_⟩
    rw [hx]; exact hc
  · rintro h c ⟨b, hb, hc⟩
    cases hx : cvxLook tab s b.name with
    | none => rw [hx] at hc; cases hc
    | some xs => rw [hx] at hc; exact boundCons_iff.2 (h b hb xs hx) c hc

/-! ### Non-vacuity: `{"h": {"ub": 1}, "hh": {"lb": 2}}` makes every problem infeasible -/

/-- the lookup of a program with the two variables `eta` and `h` -/
def twoVars : Name → Option (List CExp)
  | "eta" => some [.var 0 0 0]
  | "h" => some [.var 1 0 0]
  | _ => none

example : ∃ cs, addBounds twoVars [⟨"h", some 1, none⟩, ⟨"hh", none, some 2⟩] none = .ok cs ∧ ∀ σ, ¬ ∀ c ∈ cs, c.Holds σ := by
  obtain ⟨cs, h1, -⟩ := C36_violated (σ := fun _ _ _ => 0) (look := twoVars) (a := ⟨"h", some 1, none⟩) (b := ⟨"hh", none, some 2⟩)
    (xs := [.var 1 0 0]) (by simp [twoVars]) (by simp [twoVars])
  refine ⟨cs, h1, fun σ hσ => ?_⟩
  obtain ⟨cs', h1', h2⟩ := C36_violated (σ := σ) (look := twoVars) (a := ⟨"h", some 1, none⟩) (b := ⟨"hh", none, some 2⟩)
    (xs := [.var 1 0 0]) (by simp [twoVars]) (by simp [twoVars])
  rw [h1] at h1'
  injection h1' with h1'
  subst h1'
  obtain ⟨h3, h4⟩ := h2.1 hσ (.var 1 0 0) (by simp)
  have h5 := h3.1 1 rfl
  have h6 := h4.2 2 rfl
  push_cast at h5 h6
  linarith

example : ∃ cs, addBounds twoVars [⟨"h", some 1, none⟩, ⟨"eta", none, some 2⟩] none = .ok cs ∧ ∃ σ, ∀ c ∈ cs, c.Holds σ := by
  obtain ⟨cs, h1, h2⟩ := C36_known (σ := fun i _ _ => if i = 0 then 3 else 0) (look := twoVars) (bounds := [⟨"h", some 1, none⟩, ⟨"eta", none, some 2⟩])
    (by intro b hb; simp only [List.mem_cons, List.not_mem_nil, or_false] at hb; rcases hb with rfl | rfl <;> simp [twoVars])
  refine ⟨cs, h1, _, h2.2 fun b hb xs hx e he => ?_⟩
  simp only [List.mem_cons, List.not_mem_nil, or_false] at hb
  rcases hb with rfl | rfl <;> simp only [twoVars, Option.some.injEq] at hx <;> subst hx <;> rw [List.mem_singleton] at he <;> subst he
  · exact ⟨fun u hu => by injection hu with hu; subst hu; norm_num [CExp.eval], fun l hl => (by cases hl)⟩
  · exact ⟨fun u hu => (by cases hu), fun l hl => by injection hl with hl; subst hl; norm_num [CExp.eval]⟩

/-! ### C41 -/

/-- **C41**, recognition: if `inv` occurs in the parameter names only as a prefix, the recognised names are exactly the `v` for which
`inv` + `v` is a parameter. -/
theorem C41_recognised {params : List Name} (h : ∀ n ∈ params, ['i', 'n', 'v'] <:+: n.toList → ['i', 'n', 'v'] <+: n.toList) {v : Name} :
    v ∈ invParams params ↔ "inv" ++ v ∈ params := by
  have hinv : ("inv" : String).toList = ['i', 'n', 'v'] := by decide
  rw [invParams, List.mem_map]
  constructor
  · rintro ⟨n, hn, rfl⟩
    obtain ⟨hn, hi⟩ := List.mem_filter.1 hn
    obtain ⟨t, ht⟩ := h n hn (by simpa using hi)
    have : "inv" ++ String.ofList (List.drop 3 n.toList) = n := by
      rw [← String.toList_inj, String.toList_append, String.toList_ofList, ← ht]
      simp
    rwa [this]
  · intro hv
    refine ⟨_, List.mem_filter.2 ⟨hv, ?_⟩, ?_⟩
    · simp only [decide_eq_true_eq]
      rw [String.toList_append, hinv]
      exact List.IsPrefix.isInfix (List.prefix_append _ _)
    · rw [← String.toList_inj, String.toList_ofList, String.toList_append, hinv]
      simp

/-- **C41**, violation: a parameter that contains `inv` elsewhere than at the start is taken for a reciprocal: the rest of its name after
three characters is recognised, although the name is not `inv` followed by that rest. -/
theorem C41_mangled {params : List Name} {n : Name} (hn : n ∈ params) (hi : ['i', 'n', 'v'] <:+: n.toList) (hp : ¬ ['i', 'n', 'v'] <+: n.toList) :
    String.ofList (n.toList.drop 3) ∈ invParams params ∧ "inv" ++ String.ofList (n.toList.drop 3) ≠ n := by
  refine ⟨List.mem_map.2 ⟨n, List.mem_filter.2 ⟨hn, by simpa using hi⟩, rfl⟩, fun h => hp ?_⟩
  have hinv : ("inv" : String).toList = ['i', 'n', 'v'] := by decide
  rw [← h, String.toList_append, hinv]
  exact List.prefix_append _ _

example : invParams ["eta", "invh", "h", "invrho"] = ["h", "rho"] := by decide +kernel
example : invParams ["convinv"] = ["vinv"] := by decide +kernel
/-- a reciprocal of a reciprocal makes `invh` twice -/
example : invParams ["invh", "invinvh"] = ["h", "invh"] := by decide +kernel

end Verif
