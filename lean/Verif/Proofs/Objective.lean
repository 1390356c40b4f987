import Verif.Spec.Objective
import Verif.Spec.Clean
import Verif.Spec.Parsing
import Verif.Proofs.ProgramExpr

/-!
# The objective attribute after a program
-/

namespace Verif

variable {C : CAS}

theorem instr_obj {i : Instr} {r r' : Regs} {h h' : Heap} (hr : i.run C r h = .ok (r', h')) : r'.obj = objectiveOf [i] r.obj := by
  cases i with
  | metric e =>
    obtain ⟨x, h1, -, hr⟩ := M.bind_ok_iff.1 hr
    cases hr; rfl
  | objective e => cases hr; rfl
  | declare d | fn a | pt a | ex a | initial =>
    obtain ⟨x, h1, -, hr⟩ := M.bind_ok_iff.1 hr
    cases hr; rfl
  | constr e k =>
    obtain ⟨x, h1, -, hr⟩ := M.bind_ok_iff.1 hr
    cases hr; rfl
  | stationary f =>
    obtain ⟨x, h1, -, hr⟩ := M.bind_ok_iff.1 hr
    obtain ⟨y, h2, -, hr⟩ := M.bind_ok_iff.1 hr
    cases hr; rfl
  | oracle f x | gradient f x | value f x =>
    obtain ⟨a, h1, -, hr⟩ := M.bind_ok_iff.1 hr
    obtain ⟨b, h2, -, hr⟩ := M.bind_ok_iff.1 hr
    obtain ⟨c, h3, -, hr⟩ := M.bind_ok_iff.1 hr
    cases hr; rfl
  | prox x f gamma =>
    obtain ⟨a, h1, -, hr⟩ := M.bind_ok_iff.1 hr
    obtain ⟨b, h2, -, hr⟩ := M.bind_ok_iff.1 hr
    obtain ⟨c, h3, -, hr⟩ := M.bind_ok_iff.1 hr
    cases hr; rfl
  | conj g f =>
    obtain ⟨a, h1, -, hr⟩ := M.bind_ok_iff.1 hr
    obtain ⟨b, h2, -, hr⟩ := M.bind_ok_iff.1 hr
    obtain ⟨c, h3, -, hr⟩ := M.bind_ok_iff.1 hr
    cases hr; rfl
  | addPoint f x g v =>
    obtain ⟨a, h1, -, hr⟩ := M.bind_ok_iff.1 hr
    obtain ⟨b, h2, -, hr⟩ := M.bind_ok_iff.1 hr
    obtain ⟨c, h3, -, hr⟩ := M.bind_ok_iff.1 hr
    obtain ⟨d, h4, -, hr⟩ := M.bind_ok_iff.1 hr
    obtain ⟨e, h5, -, hr⟩ := M.bind_ok_iff.1 hr
    cases hr; rfl

theorem objectiveOf_cons (i : Instr) (is : List Instr) (o : Sym) : objectiveOf (i :: is) o = objectiveOf is (objectiveOf [i] o) := by
  cases i <;> rfl

theorem runProg_obj : ∀ {prog : List Instr} {r r' : Regs} {h h' : Heap}, runProg C prog r h = .ok (r', h') → r'.obj = objectiveOf prog r.obj
  | [], r, r', h, h', hr => by cases hr; rfl
  | i :: is, r, r', h, h', hr => by
    obtain ⟨r1, h1, e1, hr⟩ := M.bind_ok_iff.1 hr
    rw [runProg_obj hr, instr_obj e1, objectiveOf_cons i is]

/-- the objective of a problem is the one its script asked for -/
theorem runProblem_obj {prog : List Instr} {r : Regs} {h h' : Heap} (hr : runProblem C prog h = .ok (r, h')) : r.obj = goalOf prog :=
  runProg_obj hr

theorem objectiveOf_vars {V : Set Name} : ∀ {prog : List Instr}, (∀ i ∈ prog, i.Clean V) → ∀ {o : Sym}, (∀ n ∈ o.vars, n ∈ V ∨ n = "eta") →
    ∀ n ∈ (objectiveOf prog o).vars, n ∈ V ∨ n = "eta"
  | [], _, o, ho => ho
  | i :: is, hc, o, ho => by
    rw [objectiveOf_cons]
    refine objectiveOf_vars (fun j hj => hc j (List.mem_cons_of_mem _ hj)) ?_
    have hi := hc i List.mem_cons_self
    cases i with
    | metric e => intro n hn; exact Or.inr (by simpa [objectiveOf, Sym.vars] using hn)
    | objective e => exact fun n hn => Or.inl (hi n hn)
    | _ => exact ho

theorem goalOf_vars {V : Set Name} {prog : List Instr} (hc : ∀ i ∈ prog, i.Clean V) : ∀ n ∈ (goalOf prog).vars, n ∈ V ∨ n = "eta" :=
  objectiveOf_vars hc fun n hn => Or.inr (by simpa [Sym.vars] using hn)

theorem goalOf_plain {params : List Name} {prog : List Instr} (hc : ∀ i ∈ prog, i.Clean {n | n ∈ params}) (hp : ∀ n ∈ params, Plain n) :
    ∀ n ∈ (goalOf prog).vars, Plain n := fun n hn => by
  rcases goalOf_vars hc n hn with h | rfl
  · exact hp n h
  · decide +kernel

end Verif
