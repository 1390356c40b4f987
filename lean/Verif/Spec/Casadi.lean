import Verif.Model.Casadi
import Verif.Spec.Parsing

/-!
# Meaning of the solver variables
-/

namespace Verif

/-- all constraints hold at the values `σ` of the decision variables -/
def CaState.Sat (st : CaState) (σ : ℕ → ℕ → ℕ → ℝ) : Prop := ∀ c ∈ st.cons, c.Holds σ

/-- the value of the solver variable called `n` (entry (0,0)) -/
def CaState.value (st : CaState) (σ : ℕ → ℕ → ℕ → ℝ) (n : Name) : ℝ :=
  match st.vars.get? n with
  | some v => σ v.id 0 0
  | none => 0

/-- the name of a multiplier: it starts with `lamb` or `nu` -/
def IsDual (n : Name) : Prop := isLamb n = true ∨ isNu n = true

instance (n : Name) : Decidable (IsDual n) := by unfold IsDual; infer_instance

/-- the value of a symbol: of the multiplier entry its name decodes to, or of the parameter with this name -/
noncomputable def CaState.symVal (st : CaState) (σ : ℕ → ℕ → ℕ → ℝ) (n : Name) : ℝ :=
  if IsDual n then
    match decodeDual n with
    | .ok (pre, a, b) =>
      match st.vars.get? pre with
      | some v => σ v.id a b
      | none => 0
    | .error _ => 0
  else st.value σ n

/-- the dictionary of solver variables contains only names without underscore -/
def CaState.PlainKeys (st : CaState) : Prop := ∀ n ∈ Dict.keys st.vars, Plain n

/-- the expression only uses variables with numbers below `n` -/
def CExp.Below (n : ℕ) : CExp → Prop
  | .num _ => True
  | .var v _ _ => v < n
  | .add a b => a.Below n ∧ b.Below n
  | .mul a b => a.Below n ∧ b.Below n

/-- the constraint only uses variables with numbers below `n` -/
def Constr.Below (n : ℕ) : Constr → Prop
  | .eq a b => a.Below n ∧ b.Below n
  | .ge a b => a.Below n ∧ b.Below n

/-- a state as built by `opti.variable()` and `opti.subject_to`: a python dictionary of variables that were made, and constraints about
variables that were made -/
structure CaState.Wf (st : CaState) : Prop where
  nodup : Dict.NodupKeys st.vars
  ids : ∀ kv ∈ st.vars, kv.2.id < st.sizes.length
  cons : ∀ c ∈ st.cons, c.Below st.sizes.length

end Verif
