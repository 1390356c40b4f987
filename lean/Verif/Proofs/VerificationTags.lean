import Verif.Proofs.VerificationUses

/-!
# The packages of the objects in verification mode
-/

namespace Verif
open Build

/-! ### Verification mode builds what ciropt mode builds -/

theorem pkgGet_replicate {ps : List ℕ} {i : ℕ} {x : ℕ} {h h' : Heap} (e : regGet ps i h = .ok (x, h')) :
    pkgGet (List.replicate ps.length .pepit) i = .ok .pepit := by
  unfold regGet at e
  have : i < ps.length := by
    by_contra hc
    rw [List.getElem?_eq_none (by omega)] at e
    simp [M.ofOption, M.throw] at e
  simp [pkgGet, this]

theorem samePkg_self (e : Err) (p : Pkg) : samePkg e p p = .ok p := by simp [samePkg]

variable {C : CAS}

theorem PE.pkg_of_run {ps : List PtId} : ∀ {a : PE} {h h' : Heap} {x : PtId}, a.run C ps h = .ok (x, h') →
    a.pkg (List.replicate ps.length .pepit) = .ok .pepit
  | .reg i, _, _, _, e => pkgGet_replicate e
  | .add a b, _, _, _, e => by
    obtain ⟨x, h1, e1, e⟩ := M.bind_ok_iff.1 e
    obtain ⟨y, h2, e2, e⟩ := M.bind_ok_iff.1 e
    simp [PE.pkg, PE.pkg_of_run e1, PE.pkg_of_run e2, bind, Except.bind, samePkg]
  | .sub a b, _, _, _, e => by
    obtain ⟨x, h1, e1, e⟩ := M.bind_ok_iff.1 e
    obtain ⟨y, h2, e2, e⟩ := M.bind_ok_iff.1 e
    simp [PE.pkg, PE.pkg_of_run e1, PE.pkg_of_run e2, bind, Except.bind, samePkg]
  | .neg a, _, _, _, e => by
    obtain ⟨x, h1, e1, e⟩ := M.bind_ok_iff.1 e
    simp [PE.pkg, PE.pkg_of_run e1]
  | .scale s a, _, _, _, e => by
    obtain ⟨x, h1, e1, e⟩ := M.bind_ok_iff.1 e
    simp [PE.pkg, PE.pkg_of_run e1]
  | .div a c, _, _, _, e => by
    obtain ⟨x, h1, e1, e⟩ := M.bind_ok_iff.1 e
    have : c ≠ 0 := by
      rintro rfl
      simp [ptDiv, M.throw] at e
    simp [PE.pkg, PE.pkg_of_run e1, bind, Except.bind, this]

theorem EE.pkg_of_run {ps : List PtId} {es : List ExId} : ∀ {a : EE} {h h' : Heap} {x : ExId}, a.run C ps es h = .ok (x, h') →
    a.pkg (List.replicate ps.length .pepit) (List.replicate es.length .pepit) = .ok .pepit
  | .reg i, _, _, _, e => pkgGet_replicate e
  | .inner a b, _, _, _, e => by
    obtain ⟨x, h1, e1, e⟩ := M.bind_ok_iff.1 e
    obtain ⟨y, h2, e2, e⟩ := M.bind_ok_iff.1 e
    simp [EE.pkg, PE.pkg_of_run e1, PE.pkg_of_run e2, bind, Except.bind, samePkg]
  | .pow a n, _, _, _, e => by
    obtain ⟨x, h1, e1, e⟩ := M.bind_ok_iff.1 e
    have : n = 2 := by
      by_contra hc
      simp [ptPow, M.assert, hc, M.throw, bind, M.bind] at e
    simp [EE.pkg, PE.pkg_of_run e1, bind, Except.bind, this]
  | .add a b, _, _, _, e => by
    obtain ⟨x, h1, e1, e⟩ := M.bind_ok_iff.1 e
    obtain ⟨y, h2, e2, e⟩ := M.bind_ok_iff.1 e
    simp [EE.pkg, EE.pkg_of_run e1, EE.pkg_of_run e2, bind, Except.bind, samePkg]
  | .sub a b, _, _, _, e => by
    obtain ⟨x, h1, e1, e⟩ := M.bind_ok_iff.1 e
    obtain ⟨y, h2, e2, e⟩ := M.bind_ok_iff.1 e
    simp [EE.pkg, EE.pkg_of_run e1, EE.pkg_of_run e2, bind, Except.bind, samePkg]
  | .neg a, _, _, _, e => by
    obtain ⟨x, h1, e1, e⟩ := M.bind_ok_iff.1 e
    simp [EE.pkg, EE.pkg_of_run e1]
  | .scale s a, _, _, _, e => by
    obtain ⟨x, h1, e1, e⟩ := M.bind_ok_iff.1 e
    simp [EE.pkg, EE.pkg_of_run e1]
  | .div a c, _, _, _, e => by
    obtain ⟨x, h1, e1, e⟩ := M.bind_ok_iff.1 e
    have : c ≠ 0 := by
      rintro rfl
      simp [exDiv, M.throw] at e
    simp [EE.pkg, EE.pkg_of_run e1, bind, Except.bind, this]
  | .addNum a c, _, _, _, e => by
    obtain ⟨x, h1, e1, e⟩ := M.bind_ok_iff.1 e
    simp [EE.pkg, EE.pkg_of_run e1]
  | .subNum a c, _, _, _, e => by
    obtain ⟨x, h1, e1, e⟩ := M.bind_ok_iff.1 e
    simp [EE.pkg, EE.pkg_of_run e1]
  | .rsubNum c a, _, _, _, e => by
    obtain ⟨x, h1, e1, e⟩ := M.bind_ok_iff.1 e
    simp [EE.pkg, EE.pkg_of_run e1]

/-- all objects a script holds are PEPit's -/
def Regs.pep (r : Regs) : PkgRegs := ⟨List.replicate r.pts.length .pepit, List.replicate r.exs.length .pepit⟩

theorem Instr.pkg_of_run {i : Instr} (hi : ¬ ∃ g f, i = .conj g f) {r r' : Regs} {h h' : Heap} (e : i.run C r h = .ok (r', h')) :
    i.pkg r.pep = .ok r'.pep := by
  cases i with
  | conj g f => exact (hi ⟨g, f, rfl⟩).elim
  | declare d => obtain ⟨x, h1, e1, e⟩ := M.bind_ok_iff.1 e; cases e; rfl
  | fn d => obtain ⟨x, h1, e1, e⟩ := M.bind_ok_iff.1 e; cases e; rfl
  | pt a =>
    obtain ⟨x, h1, e1, e⟩ := M.bind_ok_iff.1 e; cases e
    simp [Instr.pkg, Regs.pep, PE.pkg_of_run e1, bind, Except.bind, List.replicate_succ']
  | ex a =>
    obtain ⟨x, h1, e1, e⟩ := M.bind_ok_iff.1 e; cases e
    simp [Instr.pkg, Regs.pep, EE.pkg_of_run e1, bind, Except.bind, List.replicate_succ']
  | initial =>
    obtain ⟨x, h1, e1, e⟩ := M.bind_ok_iff.1 e; cases e
    simp [Instr.pkg, Regs.pep, List.replicate_succ']
  | stationary f =>
    obtain ⟨x, h1, e1, e⟩ := M.bind_ok_iff.1 e
    obtain ⟨y, h2, e2, e⟩ := M.bind_ok_iff.1 e; cases e
    simp [Instr.pkg, Regs.pep, List.replicate_succ']
  | oracle f x =>
    obtain ⟨x, h1, e1, e⟩ := M.bind_ok_iff.1 e
    obtain ⟨y, h2, e2, e⟩ := M.bind_ok_iff.1 e
    obtain ⟨z, h3, e3, e⟩ := M.bind_ok_iff.1 e; cases e
    simp [Instr.pkg, Regs.pep, pkgGet_replicate e2, bind, Except.bind, samePkg, List.replicate_succ']
  | gradient f x =>
    obtain ⟨x, h1, e1, e⟩ := M.bind_ok_iff.1 e
    obtain ⟨y, h2, e2, e⟩ := M.bind_ok_iff.1 e
    obtain ⟨z, h3, e3, e⟩ := M.bind_ok_iff.1 e; cases e
    simp [Instr.pkg, Regs.pep, pkgGet_replicate e2, bind, Except.bind, samePkg, List.replicate_succ']
  | value f x =>
    obtain ⟨x, h1, e1, e⟩ := M.bind_ok_iff.1 e
    obtain ⟨y, h2, e2, e⟩ := M.bind_ok_iff.1 e
    obtain ⟨z, h3, e3, e⟩ := M.bind_ok_iff.1 e; cases e
    simp [Instr.pkg, Regs.pep, pkgGet_replicate e2, bind, Except.bind, samePkg, List.replicate_succ']
  | prox x f g =>
    obtain ⟨x, h1, e1, e⟩ := M.bind_ok_iff.1 e
    obtain ⟨y, h2, e2, e⟩ := M.bind_ok_iff.1 e
    obtain ⟨z, h3, e3, e⟩ := M.bind_ok_iff.1 e; cases e
    simp [Instr.pkg, Regs.pep, pkgGet_replicate e1, bind, Except.bind, samePkg, List.replicate_succ']
  | addPoint f x g v =>
    obtain ⟨x, h1, e1, e⟩ := M.bind_ok_iff.1 e
    obtain ⟨y, h2, e2, e⟩ := M.bind_ok_iff.1 e
    obtain ⟨z, h3, e3, e⟩ := M.bind_ok_iff.1 e
    obtain ⟨z, h3, e3, e⟩ := M.bind_ok_iff.1 e
    obtain ⟨z, h3, e3, e⟩ := M.bind_ok_iff.1 e; cases e; rfl
  | constr f k => obtain ⟨x, h1, e1, e⟩ := M.bind_ok_iff.1 e; cases e; rfl
  | metric f => obtain ⟨x, h1, e1, e⟩ := M.bind_ok_iff.1 e; cases e; rfl
  | objective f => cases e; rfl

theorem pkgRun_of_run : ∀ {prog : List Instr}, (∀ i ∈ prog, ¬ ∃ g f, i = .conj g f) → ∀ {r r' : Regs} {h h' : Heap},
    runProg C prog r h = .ok (r', h') → pkgRun prog r.pep = .ok r'.pep
  | [], _, _, _, _, _, e => by cases e; rfl
  | i :: is, hi, _, _, _, _, e => by
    obtain ⟨x, h1, e1, e⟩ := M.bind_ok_iff.1 e
    simp only [pkgRun, Instr.pkg_of_run (hi i List.mem_cons_self) e1, bind, Except.bind]
    exact pkgRun_of_run (fun j hj => hi j (List.mem_cons_of_mem _ hj)) e

/-! ### The classes of the objects of dual decomposition -/

/-- the package of a point expression -/
def Tag (T : List Pkg) (e : PE) (p : Pkg) : Prop := e.pkg T = .ok p

theorem Tag.unique {T : List Pkg} {e : PE} {p q : Pkg} (h : Tag T e p) (h' : Tag T e q) : p = q := by
  unfold Tag at h h'; rw [h] at h'; cases h'; rfl

theorem pkgGet_mono {T l : List Pkg} (hl : l <+: T) {i : ℕ} {p : Pkg} (h : pkgGet l i = .ok p) : pkgGet T i = .ok p := by
  obtain ⟨t, rfl⟩ := hl
  unfold pkgGet at h ⊢
  cases e : l[i]? with
  | none => rw [e] at h; cases h
  | some q =>
    rw [e] at h
    rw [List.getElem?_append_left (List.getElem?_eq_some_iff.1 e).1, e]
    exact h

theorem Tag.mono {T l : List Pkg} (hl : l <+: T) : ∀ {e : PE} {p : Pkg}, Tag l e p → Tag T e p := by
  unfold Tag
  intro e
  induction e with
  | reg i => exact pkgGet_mono hl
  | add a b iha ihb =>
    intro p h
    cases ha : a.pkg l with
    | error => simp [PE.pkg, ha, bind, Except.bind] at h
    | ok x => cases hb : b.pkg l with
      | error => simp [PE.pkg, ha, hb, bind, Except.bind] at h
      | ok y => simpa [PE.pkg, ha, hb, iha ha, ihb hb, bind, Except.bind] using h
  | sub a b iha ihb =>
    intro p h
    cases ha : a.pkg l with
    | error => simp [PE.pkg, ha, bind, Except.bind] at h
    | ok x => cases hb : b.pkg l with
      | error => simp [PE.pkg, ha, hb, bind, Except.bind] at h
      | ok y => simpa [PE.pkg, ha, hb, iha ha, ihb hb, bind, Except.bind] using h
  | neg a iha => exact iha
  | scale s a iha => exact iha
  | div a c iha =>
    intro p h
    cases ha : a.pkg l with
    | error => simp [PE.pkg, ha, bind, Except.bind] at h
    | ok x => simpa [PE.pkg, ha, iha ha, bind, Except.bind] using h

theorem Tag.add {T : List Pkg} {a b : PE} {p : Pkg} (h : Tag T (a + b) p) : Tag T a p ∧ Tag T b p := by
  change (PE.add a b).pkg T = _ at h
  unfold Tag
  cases ha : a.pkg T with
  | error => simp [PE.pkg, ha, bind, Except.bind] at h
  | ok x => cases hb : b.pkg T with
    | error => simp [PE.pkg, ha, hb, bind, Except.bind] at h
    | ok y =>
      simp only [PE.pkg, ha, hb, bind, Except.bind, samePkg] at h
      split at h
      · rename_i hxy; subst hxy; cases h; exact ⟨rfl, rfl⟩
      · cases h

theorem Tag.sub {T : List Pkg} {a b : PE} {p : Pkg} (h : Tag T (a - b) p) : Tag T a p ∧ Tag T b p := by
  change (PE.sub a b).pkg T = _ at h
  unfold Tag
  cases ha : a.pkg T with
  | error => simp [PE.pkg, ha, bind, Except.bind] at h
  | ok x => cases hb : b.pkg T with
    | error => simp [PE.pkg, ha, hb, bind, Except.bind] at h
    | ok y =>
      simp only [PE.pkg, ha, hb, bind, Except.bind, samePkg] at h
      split at h
      · rename_i hxy; subst hxy; cases h; exact ⟨rfl, rfl⟩
      · cases h

theorem Tag.scale {T : List Pkg} {s : Sym} {a : PE} {p : Pkg} (h : Tag T (s * a) p) : Tag T a p := h
theorem Tag.neg {T : List Pkg} {a : PE} {p : Pkg} (h : Tag T (-a) p) : Tag T a p := h
theorem Tag.div {T : List Pkg} {a : PE} {c : ℚ} {p : Pkg} (h : Tag T (a / c) p) : Tag T a p := by
  change (PE.div a c).pkg T = _ at h
  unfold Tag
  cases ha : a.pkg T with
  | error => simp [PE.pkg, ha, bind, Except.bind] at h
  | ok x =>
    simp only [PE.pkg, ha, bind, Except.bind] at h
    split at h
    · cases h
    · cases h; rfl

section tagged
variable {T : List Pkg} {α β σ : Type}

theorem Instr.pkg_prefix {i : Instr} {r r' : PkgRegs} (e : i.pkg r = .ok r') (n : Counts) (hn : r.pts.length = n.np) :
    r.pts <+: r'.pts ∧ r'.pts.length = (i.next n).np := by
  have hs : ∀ {p : Pkg} {u : Except Err PkgRegs}, (samePkg .assertion p .pepit).bind (fun _ => u) = .ok r' → u = .ok r' := by
    intro p u h
    unfold samePkg at h
    split at h
    · exact h
    · cases h
  cases i with
  | pt a =>
    cases h : a.pkg r.pts with
    | error => simp [Instr.pkg, h, bind, Except.bind] at e
    | ok p => simp [Instr.pkg, h, bind, Except.bind] at e; subst e; simp [Instr.next, hn]
  | ex a =>
    cases h : a.pkg r.pts r.exs with
    | error => simp [Instr.pkg, h, bind, Except.bind] at e
    | ok p => simp [Instr.pkg, h, bind, Except.bind] at e; subst e; simp [Instr.next, hn]
  | oracle f x =>
    cases h : pkgGet r.pts x with
    | error => simp [Instr.pkg, h, bind, Except.bind] at e
    | ok p =>
      simp only [Instr.pkg, h, bind, Except.bind] at e
      cases hs e; simp [Instr.next, hn]
  | gradient f x =>
    cases h : pkgGet r.pts x with
    | error => simp [Instr.pkg, h, bind, Except.bind] at e
    | ok p =>
      simp only [Instr.pkg, h, bind, Except.bind] at e
      cases hs e; simp [Instr.next, hn]
  | value f x =>
    cases h : pkgGet r.pts x with
    | error => simp [Instr.pkg, h, bind, Except.bind] at e
    | ok p =>
      simp only [Instr.pkg, h, bind, Except.bind] at e
      cases hs e; simp [Instr.next, hn]
  | prox x f g =>
    cases h : pkgGet r.pts x with
    | error => simp [Instr.pkg, h, bind, Except.bind] at e
    | ok p =>
      simp only [Instr.pkg, h, bind, Except.bind] at e
      cases hs e; simp [Instr.next, hn]
  | conj x f =>
    cases h : pkgGet r.pts x with
    | error => simp [Instr.pkg, h, bind, Except.bind] at e
    | ok p =>
      simp only [Instr.pkg, h, bind, Except.bind] at e
      cases e; simp [Instr.next, hn]
  | _ => cases e; simp [Instr.next, hn]

theorem pkgRun_prefix : ∀ {prog : List Instr} {r r' : PkgRegs}, pkgRun prog r = .ok r' → r.pts <+: r'.pts
  | [], _, _, e => by cases e; exact List.prefix_rfl
  | i :: is, r, r', e => by
    cases h : i.pkg r with
    | error => simp [pkgRun, h, bind, Except.bind] at e
    | ok r1 =>
      simp only [pkgRun, h, bind, Except.bind] at e
      exact (Instr.pkg_prefix h ⟨r.pts.length, 0, 0⟩ rfl).1.trans (pkgRun_prefix e)

variable (T) in
/-- if these calls and those after them raise no error, and the points the script holds in the end are `T`, the result satisfies `Q` -/
def Tagged (c : Build α) (Q : α → Prop) : Prop := ∀ (n : Counts) (r rT : PkgRegs) (rest : List Instr), r.pts.length = n.np →
  pkgRun ((c n).2.2 ++ rest) r = .ok rT → rT.pts = T → ∃ r', pkgRun rest r' = .ok rT ∧ r'.pts.length = (c n).2.1.np ∧ Q (c n).1

theorem Tagged.ret {a : α} {Q : α → Prop} (h : Q a) : Tagged T (ret a) Q := fun _ r _ _ hn e _ => ⟨r, e, hn, h⟩

theorem Tagged.andThen {c : Build α} {f : α → Build β} {Q : α → Prop} {R : β → Prop} (h : Tagged T c Q) (h' : ∀ a, Q a → Tagged T (f a) R) :
    Tagged T (andThen c f) R := by
  intro n r rT rest hn e hT
  have e : pkgRun (((c n).2.2 ++ (f (c n).1 (c n).2.1).2.2) ++ rest) r = .ok rT := e
  rw [List.append_assoc] at e
  obtain ⟨r1, e1, l1, q1⟩ := h n r rT _ hn e hT
  exact h' _ q1 _ r1 rT rest l1 e1 hT

theorem Tagged.bind {c : Build α} {f : α → Build β} {Q : α → Prop} {R : β → Prop} (h : Tagged T c Q) (h' : ∀ a, Q a → Tagged T (f a) R) :
    Tagged T (c >>= f) R := h.andThen h'

theorem Tagged.pure {a : α} {Q : α → Prop} (h : Q a) : Tagged T (Pure.pure a) Q := Tagged.ret h

theorem Tagged.emit {i : Instr} {a : Counts → α} {Q : α → Prop}
    (h : ∀ n r r', r.pts.length = n.np → i.pkg r = .ok r' → r.pts <+: T → r'.pts <+: T → Q (a n)) : Tagged T (emit i a) Q := by
  intro n r rT rest hn e hT
  have e : pkgRun (i :: rest) r = .ok rT := e
  cases h1 : i.pkg r with
  | error => simp [pkgRun, h1, Bind.bind, Except.bind] at e
  | ok r1 =>
    simp only [pkgRun, h1, Bind.bind, Except.bind] at e
    obtain ⟨p1, l1⟩ := Instr.pkg_prefix h1 n hn
    have p2 := pkgRun_prefix e
    rw [hT] at p2
    exact ⟨r1, e, l1, h n r r1 hn h1 (p1.trans p2) p2⟩

theorem Tagged.emit_true {i : Instr} {a : Counts → α} : Tagged T (Build.emit i a) fun _ => True := .emit fun _ _ _ _ _ _ _ => trivial

theorem tag_reg {l : List Pkg} {n : ℕ} {p : Pkg} (hn : l.length = n) (h : l ++ [p] <+: T) : Tag T (.reg n) p := by
  refine Tag.mono h ?_
  simp [Tag, PE.pkg, pkgGet, ← hn]

theorem Tagged.pt {e : PE} : Tagged T (Build.pt e) fun e' => ∃ p, Tag T e p ∧ Tag T e' p := by
  refine .emit fun n r r' hn h1 hr hr' => ?_
  cases h : e.pkg r.pts with
  | error => simp [Instr.pkg, h, Bind.bind, Except.bind] at h1
  | ok p =>
    simp only [Instr.pkg, h, Bind.bind, Except.bind] at h1
    cases h1
    exact ⟨p, Tag.mono hr h, tag_reg hn hr'⟩

theorem Tagged.initial : Tagged T Build.initial fun e => Tag T e .pepit := by
  refine .emit fun n r r' hn h1 hr hr' => ?_
  cases h1
  exact tag_reg hn hr'

theorem Tagged.fnArg (f : FE) : Tagged T (Build.fnArg f) fun _ => True := by
  cases f <;> first | exact .ret trivial | exact .emit_true
theorem Tagged.ptArg (e : PE) : Tagged T (Build.ptArg e) fun _ => True := by
  cases e <;> first | exact .ret trivial | exact .emit_true
theorem Tagged.stationary (f : FE) : Tagged T (Build.stationary f) fun _ => True := .andThen (.fnArg f) fun _ _ => .emit_true
theorem Tagged.oracle (f : FE) (x : PE) : Tagged T (Build.oracle f x) fun _ => True :=
  .andThen (.fnArg f) fun _ _ => .andThen (.ptArg x) fun _ _ => .emit_true
theorem Tagged.conj (x : PE) (f : FE) : Tagged T (Build.conj x f) fun e => Tag T e .ciropt := by
  refine .andThen (.ptArg x) fun j _ => .andThen (.fnArg f) fun _ _ => .emit fun n r r' hn h1 hr hr' => ?_
  cases h : pkgGet r.pts j with
  | error => simp [Instr.pkg, h, Bind.bind, Except.bind] at h1
  | ok p =>
    simp only [Instr.pkg, h, Bind.bind, Except.bind] at h1
    cases h1
    exact tag_reg hn hr'

theorem Tagged.loop {body : σ → α → Build σ} {I : σ → Prop} (h : ∀ s, I s → ∀ a, Tagged T (body s a) I) : ∀ {l : List α} {s}, I s →
    Tagged T (Build.loop body l s) I
  | [], _, hs => .ret hs
  | a :: _, s, hs => .andThen (h s hs a) fun _ h' => Tagged.loop h h'

theorem Tagged.loop_cons {body : σ → α → Build σ} {I : σ → Prop} (h : ∀ s a, Tagged T (body s a) I) {l : List α} (hl : l ≠ []) (s : σ) :
    Tagged T (Build.loop body l s) I := by
  cases l with
  | nil => exact (hl rfl).elim
  | cons a l => exact .andThen (h s a) fun _ h' => .loop (fun s _ a => h s a) h'

theorem Tagged.mapB_true {body : α → Build β} (h : ∀ a, Tagged T (body a) fun _ => True) : ∀ {l : List α}, Tagged T (Build.mapB body l) fun _ => True
  | [] => .ret trivial
  | a :: _ => .andThen (h a) fun _ _ => .andThen (Tagged.mapB_true h) fun _ _ => .ret trivial

/-- a list with an element whose call cannot succeed -/
theorem Tagged.mapB_false {body : α → Build β} {a : α} {l : List α} (h : Tagged T (body a) fun _ => False) {Q} : Tagged T (Build.mapB body (a :: l)) Q :=
  .andThen h fun _ h => h.elim

theorem Tagged.addTo {z : Option PE} {x : PE} {p : Pkg} (hx : Tag T x p) : Tagged T (Build.addTo z x) fun e => Tag T e p := by
  cases z with
  | none => exact .ret hx
  | some z =>
    refine Tagged.andThen (f := Build.ret) .pt fun e he => .ret ?_
    obtain ⟨q, h1, h2⟩ := he
    rwa [hx.unique h1.add.2]

theorem Tagged.subFrom {z : Option PE} {x : PE} {p : Pkg} (hx : Tag T x p) : Tagged T (Build.subFrom z x) fun e => Tag T e p := by
  cases z with
  | none =>
    refine Tagged.andThen (f := Build.ret) .pt fun e he => .ret ?_
    obtain ⟨q, h1, h2⟩ := he
    rwa [hx.unique h1.neg]
  | some z =>
    refine Tagged.andThen (f := Build.ret) .pt fun e he => .ret ?_
    obtain ⟨q, h1, h2⟩ := he
    rwa [hx.unique h1.sub.2]

variable (T) in
/-- the accumulators of the first loop of dual decomposition: the currents are PEPit's -/
def DualInv (s : (List PE × Option PE) × List PE × Option PE) : Prop := ∃ y l, s.1.1 = y :: l ∧ Tag T y .pepit

theorem tagged_dualInitStep_first (x : List PE × Option PE) (f : FE) (o : Option PE) : Tagged T (dualInitStep (([], o), x) f) (DualInv T) :=
  .bind .initial fun _ hy => .bind (.subFrom hy) fun _ _ => .bind (.conj _ _) fun _ hx => .bind (.addTo hx) fun _ _ => .pure ⟨_, _, rfl, hy⟩

theorem tagged_dualInitStep {s : (List PE × Option PE) × List PE × Option PE} (hs : DualInv T s) (f : FE) : Tagged T (dualInitStep s f) (DualInv T) := by
  obtain ⟨y, l, h, hy⟩ := hs
  exact .bind .initial fun _ hy' => .bind (.subFrom hy') fun _ _ => .bind (.conj _ _) fun _ hx => .bind (.addTo hx) fun _ _ =>
    .pure ⟨y, _, by rw [h]; rfl, hy⟩

theorem tagged_defineSum (mu : ℚ) (L : Option ℚ) (m : ℕ) : Tagged T (defineSum mu L m) fun _ => True :=
  .bind .emit_true fun _ _ => .loop (I := fun _ => True) (fun _ _ _ => .bind .emit_true fun _ _ => .bind .emit_true fun _ _ => .pure trivial) trivial

end tagged

/-- the functions of `defineSum` -/
theorem defineSum_length (mu : ℚ) (L : Option ℚ) (m : ℕ) (n : Counts) : ((defineSum mu L m) n).1.1.length = m + 1 := by
  have : ∀ (l : List ℕ) (s : List FE × FE) (n : Counts), ((Build.loop (fun (s : List FE × FE) _ => do
      let f ← define mu L
      let g ← fn (s.2 + f)
      return (s.1 ++ [f], g)) l s) n).1.1.length = s.1.length + l.length := by
    intro l
    induction l with
    | nil => intro s n; rfl
    | cons a l ih =>
      intro s n
      refine (ih _ _).trans ?_
      simp [Bind.bind, Build.andThen, Pure.pure, Build.ret]
      omega
  refine (this _ _ _).trans ?_
  simp [add_comm]

/-- in verification mode the calls of dual decomposition cannot all succeed -/
theorem tagged_dualDecomposition {T : List Pkg} (k : ℕ) (mu : ℚ) (L : Option ℚ) (Ind : ℚ) : Tagged T (dualDecomposition k mu L Ind) fun _ => False := by
  unfold dualDecomposition
  have h0 : Tagged T (defineSum mu L (k + 1)) fun t => t.1.length = k + 2 := fun n r rT rest hn e hT => by
    obtain ⟨r', h1, h2, -⟩ := tagged_defineSum mu L (k + 1) n r rT rest hn e hT
    exact ⟨r', h1, h2, defineSum_length mu L (k + 1) n⟩
  refine .bind h0 ?_
  rintro ⟨fs, f⟩ hfs
  dsimp only at hfs
  refine .bind (.stationary f) ?_
  rintro ⟨xs, yst, fst⟩ -
  refine .bind (.mapB_true fun f => .bind (.oracle f xs) fun _ _ => .pure trivial) fun ys _ => ?_
  have h1 : Tagged T (Build.loop dualInitStep fs.dropLast (([], none), [], none)) (DualInv T) := by
    match fs, hfs with
    | a :: b :: l, _ => exact .andThen (tagged_dualInitStep_first _ _ _) fun s hs => .loop (fun s hs f => tagged_dualInitStep hs f) hs
  refine .bind h1 ?_
  rintro ⟨⟨iL, last⟩, xs1, z⟩ ⟨y, l, e, hy⟩
  dsimp only at e
  subst e
  refine .bind (.conj _ _) fun xl hxl => .bind (.addTo hxl) fun z' hz' => .bind .pt fun z1 hz1 => ?_
  obtain ⟨p, h2, h3⟩ := hz1
  have hp := hz'.unique h2.div
  subst hp
  refine .bind (Q := fun _ => False) ?_ fun _ h => h.elim
  obtain ⟨x, l', e⟩ : ∃ x l', xs1 ++ [xl] = x :: l' := by cases xs1 <;> simp
  rw [e, List.cons_append, List.zip_cons_cons]
  refine .mapB_false ?_
  refine Tagged.andThen (f := Build.ret) .pt fun e he => ?_
  obtain ⟨q, h4, -⟩ := he
  have h5 := hy.unique h4.add.1
  have h6 := h3.unique (h4.add.2.scale).sub.1
  rw [← h5] at h6
  cases h6

theorem dualDecomposition_pkg (k : ℕ) (mu : ℚ) (L : Option ℚ) (Ind : ℚ) (r : PkgRegs) :
    pkgRun (dualDecomposition k mu L Ind).prog ⟨[], []⟩ ≠ .ok r := by
  intro e
  obtain ⟨_, _, _, h⟩ := tagged_dualDecomposition k mu L Ind ⟨0, 0, 0⟩ ⟨[], []⟩ r [] rfl (by rwa [List.append_nil]) rfl
  exact h

end Verif
