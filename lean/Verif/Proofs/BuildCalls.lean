import Verif.Model.Circuits

/-! # The calls of a builder, by rewriting -/

namespace Verif.Build

variable {α β γ : Type}

/-- the calls of a builder that starts with `n` registers -/
def calls (c : Build α) (n : Counts) : List Instr := (c n).2.2

theorem prog_eq (c : Build α) : c.prog = c.calls ⟨0, 0, 0⟩ := rfl

theorem bind_eq (c : Build α) (f : α → Build β) : (c >>= f) = c.andThen f := rfl
theorem pure_eq (a : α) : (pure a : Build α) = ret a := rfl

theorem andThen_assoc (c : Build α) (f : α → Build β) (g : β → Build γ) :
    (c.andThen f).andThen g = c.andThen fun a => (f a).andThen g := by
  funext n
  simp [andThen]

theorem ret_andThen (a : α) (f : α → Build β) : (ret a).andThen f = f a := by
  funext n
  simp [andThen, ret]

theorem calls_ret (a : α) (n : Counts) : (ret a).calls n = [] := rfl
theorem calls_emit (i : Instr) (a : Counts → α) (n : Counts) : (emit i a).calls n = [i] := rfl
theorem calls_andThen_emit (i : Instr) (a : Counts → α) (f : α → Build β) (n : Counts) :
    ((emit i a).andThen f).calls n = i :: (f (a n)).calls (i.next n) := rfl

theorem fst_ret (a : α) (n : Counts) : ((ret a) n).1 = a := rfl
theorem fst_andThen_emit (i : Instr) (a : Counts → α) (f : α → Build β) (n : Counts) :
    (((emit i a).andThen f) n).1 = ((f (a n)) (i.next n)).1 := rfl

theorem ptArg_reg (i : ℕ) : ptArg (.reg i) = ret i := rfl
theorem ptArg_add (a b : PE) : ptArg (a + b) = emit (.pt (a + b)) fun n => n.np := rfl
theorem ptArg_sub (a b : PE) : ptArg (a - b) = emit (.pt (a - b)) fun n => n.np := rfl
theorem ptArg_smul (a : Sym) (b : PE) : ptArg (a * b) = emit (.pt (a * b)) fun n => n.np := rfl
theorem ptArg_qmul (a : ℚ) (b : PE) : ptArg (a * b) = emit (.pt (a * b)) fun n => n.np := rfl
theorem ptArg_div (a : PE) (b : ℚ) : ptArg (a / b) = emit (.pt (a / b)) fun n => n.np := rfl
theorem ptArg_neg (a : PE) : ptArg (-a) = emit (.pt (-a)) fun n => n.np := rfl
theorem exArg_reg (i : ℕ) : exArg (.reg i) = ret i := rfl
theorem exArg_sub (a b : EE) : exArg (a - b) = emit (.ex (a - b)) fun n => n.ne := rfl
theorem exArg_add (a b : EE) : exArg (a + b) = emit (.ex (a + b)) fun n => n.ne := rfl
theorem exArg_sq (a : PE) : exArg a.sq = emit (.ex a.sq) fun n => n.ne := rfl
theorem fnArg_reg (i : ℕ) : fnArg (.reg i) = ret i := rfl
theorem fnArg_add (a b : FE) : fnArg (a + b) = emit (.fn (a + b)) fun n => n.nf := rfl

theorem next_declare (d : FnDecl) (a b c : ℕ) : Instr.next ⟨a, b, c⟩ (.declare d) = ⟨a, b, c + 1⟩ := rfl
theorem next_fn (d : FE) (a b c : ℕ) : Instr.next ⟨a, b, c⟩ (.fn d) = ⟨a, b, c + 1⟩ := rfl
theorem next_pt (d : PE) (a b c : ℕ) : Instr.next ⟨a, b, c⟩ (.pt d) = ⟨a + 1, b, c⟩ := rfl
theorem next_ex (d : EE) (a b c : ℕ) : Instr.next ⟨a, b, c⟩ (.ex d) = ⟨a, b + 1, c⟩ := rfl
theorem next_initial (a b c : ℕ) : Instr.next ⟨a, b, c⟩ .initial = ⟨a + 1, b, c⟩ := rfl
theorem next_stationary (f a b c : ℕ) : Instr.next ⟨a, b, c⟩ (.stationary f) = ⟨a + 2, b + 1, c⟩ := rfl
theorem next_oracle (f x a b c : ℕ) : Instr.next ⟨a, b, c⟩ (.oracle f x) = ⟨a + 1, b + 1, c⟩ := rfl
theorem next_prox (f x a b c : ℕ) (s : Sym) : Instr.next ⟨a, b, c⟩ (.prox f x s) = ⟨a + 2, b + 1, c⟩ := rfl
theorem next_conj (f x a b c : ℕ) : Instr.next ⟨a, b, c⟩ (.conj f x) = ⟨a + 1, b, c⟩ := rfl
theorem next_constr (e a b c : ℕ) (k : Kind) : Instr.next ⟨a, b, c⟩ (.constr e k) = ⟨a, b, c⟩ := rfl
theorem next_metric (e a b c : ℕ) : Instr.next ⟨a, b, c⟩ (.metric e) = ⟨a, b, c⟩ := rfl

/-- rewrite the calls of a builder to a list -/
macro "calls_simp" "[" ts:Lean.Parser.Tactic.simpLemma,* "]" loc:(Lean.Parser.Tactic.location)? : tactic =>
  `(tactic| simp (config := {maxSteps := 2000000}) only [prog_eq, bind_eq, pure_eq, andThen_assoc, ret_andThen, calls_ret, calls_emit, calls_andThen_emit, ptArg_reg, ptArg_add,
    ptArg_sub, ptArg_smul, ptArg_qmul, ptArg_div, ptArg_neg, exArg_reg, exArg_sub, exArg_add, exArg_sq, fnArg_reg, fnArg_add, next_declare,
    next_fn, next_pt, next_ex, next_initial, next_stationary, next_oracle, next_prox, next_conj, next_constr, next_metric, finishMetric,
    pt, ex, fn, define, initial, stationary, oracle, prox, conj, equality, metric, Nat.reduceAdd, $ts,*] $[$loc]?)

end Verif.Build
