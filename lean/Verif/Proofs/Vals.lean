import Verif.Spec.Vals
import Verif.Spec.Dual

namespace Verif

variable {E : Type} [NormedAddCommGroup E] [InnerProductSpace ℝ E]

/-- the first registers of an assignment, as an execution state -/
structure Agree (V : Vals E) (rr : RRegs E) (n : Counts) (nd : ℕ) (cs : List (ℝ × Kind)) (m : Option ℕ) : Prop where
  pts : rr.pts = (List.range n.np).map V.pt
  exs : rr.exs = (List.range n.ne).map V.ex
  fns : rr.fns = (List.range n.nf).map V.fn
  ndecl : rr.ndecl = nd
  cons : rr.cons = cs
  metric : rr.metric = m.map V.ex

theorem getD_range_map {α : Type} (f : ℕ → α) {n i : ℕ} (d : α) (h : i < n) : ((List.range n).map f).getD i d = f i := by
  simp [List.getD, h]

variable {V : Vals E} {env : Name → ℝ} {SR : ℕ → E → E → ℝ → Prop}

theorem PE.den_val {np : ℕ} (a : PE) (h : a.Safe np = true) : a.den env ((List.range np).map V.pt) = a.val env V := by
  induction a with
  | reg i => exact getD_range_map _ _ (by simpa [PE.Safe] using h)
  | _ => simp_all [PE.Safe, PE.den, PE.val]

theorem EE.den_val {np ne : ℕ} (a : EE) (h : a.Safe np ne = true) :
    a.den env ((List.range np).map V.pt) ((List.range ne).map V.ex) = a.val env V := by
  induction a with
  | reg i => exact getD_range_map _ _ (by simpa [EE.Safe] using h)
  | inner a b =>
    simp only [EE.Safe, Bool.and_eq_true] at h
    simp only [EE.den, EE.val, PE.den_val a h.1, PE.den_val b h.2]
  | pow a m =>
    simp only [EE.Safe, Bool.and_eq_true] at h
    simp only [EE.den, EE.val, PE.den_val a h.1]
  | _ => simp_all [EE.Safe, EE.den, EE.val]

theorem FE.den_val {nf : ℕ} (a : FE) (h : a.Safe nf = true) : a.den ((List.range nf).map V.fn) = a.val V := by
  induction a with
  | reg i => exact getD_range_map _ _ (by simpa [FE.Safe] using h)
  | _ => simp_all [FE.Safe, FE.den, FE.val]

theorem range_map_succ {α : Type} (f : ℕ → α) (n : ℕ) : (List.range (n + 1)).map f = (List.range n).map f ++ [f n] := by
  simp [List.range_succ]

theorem range_map_succ2 {α : Type} (f : ℕ → α) (n : ℕ) :
    (List.range (n + 2)).map f = (List.range n).map f ++ [f n, f (n + 1)] := by
  simp [List.range_succ]

theorem step_of_meets {i : Instr} {n : Counts} {nd : ℕ} {cs : List (ℝ × Kind)} {m : Option ℕ} (hs : i.Safe n = true)
    (hm : i.Meets SR env V n nd) {rr : RRegs E} (ha : Agree V rr n nd cs m) :
    ∃ rr', Step SR env i rr rr' ∧ Agree V rr' (i.next n) (i.nextDecl nd) (cs ++ consVals V [i]) (metricReg [i] m) := by
  obtain ⟨p, e, f, nd', c, mt⟩ := rr
  obtain ⟨rfl, rfl, rfl, rfl, rfl, hmt⟩ := ha
  simp only at hmt
  subst hmt
  cases i with
  | declare d =>
    refine ⟨_, .declare _ d, ?_⟩
    constructor <;> simp_all [Instr.Meets, Instr.next, Instr.nextDecl, consVals, metricReg, range_map_succ]
  | fn a =>
    refine ⟨_, .fn _ a, ?_⟩
    simp only [Instr.Safe] at hs
    constructor <;> simp_all [Instr.Meets, Instr.next, Instr.nextDecl, consVals, metricReg, range_map_succ, FE.den_val a hs]
  | pt a =>
    refine ⟨_, .pt _ a, ?_⟩
    simp only [Instr.Safe] at hs
    constructor <;> simp_all [Instr.Meets, Instr.next, Instr.nextDecl, consVals, metricReg, range_map_succ, PE.den_val a hs]
  | ex a =>
    refine ⟨_, .ex _ a, ?_⟩
    simp only [Instr.Safe] at hs
    constructor <;> simp_all [Instr.Meets, Instr.next, Instr.nextDecl, consVals, metricReg, range_map_succ, EE.den_val a hs]
  | initial =>
    refine ⟨_, .initial _ (V.pt n.np), ?_⟩
    constructor <;> simp_all [Instr.Meets, Instr.next, Instr.nextDecl, consVals, metricReg, range_map_succ]
  | stationary f =>
    simp only [Instr.Safe, decide_eq_true_eq] at hs
    refine ⟨_, .stationary _ f (V.pt n.np) (V.ex n.ne) ?_, ?_⟩
    · rw [getD_range_map _ _ hs]
      have := hm.1
      rwa [hm.2] at this
    · have := hm.2
      constructor <;> simp_all [Instr.next, Instr.nextDecl, consVals, metricReg, range_map_succ, range_map_succ2]
  | oracle f x =>
    simp only [Instr.Safe, Bool.and_eq_true, decide_eq_true_eq] at hs
    refine ⟨_, .oracle _ f x (V.pt n.np) (V.ex n.ne) ?_, ?_⟩
    · simp only
      rw [getD_range_map _ _ hs.1, getD_range_map _ _ hs.2]
      exact hm
    · constructor <;> simp_all [Instr.next, Instr.nextDecl, consVals, metricReg, range_map_succ]
  | gradient f x =>
    simp only [Instr.Safe, Bool.and_eq_true, decide_eq_true_eq] at hs
    obtain ⟨v, hv⟩ := hm
    refine ⟨_, .gradient _ f x (V.pt n.np) v ?_, ?_⟩
    · simp only
      rw [getD_range_map _ _ hs.1, getD_range_map _ _ hs.2]
      exact hv
    · constructor <;> simp_all [Instr.next, Instr.nextDecl, consVals, metricReg, range_map_succ]
  | value f x =>
    simp only [Instr.Safe, Bool.and_eq_true, decide_eq_true_eq] at hs
    obtain ⟨g, hg⟩ := hm
    refine ⟨_, .value _ f x g (V.ex n.ne) ?_, ?_⟩
    · simp only
      rw [getD_range_map _ _ hs.1, getD_range_map _ _ hs.2]
      exact hg
    · constructor <;> simp_all [Instr.next, Instr.nextDecl, consVals, metricReg, range_map_succ]
  | prox x0 f gamma =>
    simp only [Instr.Safe, Bool.and_eq_true, decide_eq_true_eq] at hs
    refine ⟨_, .prox _ x0 f gamma (V.pt n.np) (V.pt (n.np + 1)) (V.ex n.ne) ?_ ?_, ?_⟩
    · simp only
      rw [getD_range_map _ _ hs.2]
      exact hm.1
    · simp only
      rw [getD_range_map _ _ hs.1]
      exact hm.2
    · constructor <;> simp [Instr.next, Instr.nextDecl, consVals, metricReg, range_map_succ, range_map_succ2]
  | conj g f =>
    simp only [Instr.Safe, Bool.and_eq_true, decide_eq_true_eq] at hs
    obtain ⟨v, hv⟩ := hm
    refine ⟨_, .conj _ g f (V.pt n.np) v ?_, ?_⟩
    · simp only
      rw [getD_range_map _ _ hs.1, getD_range_map _ _ hs.2]
      exact hv
    · constructor <;> simp_all [Instr.next, Instr.nextDecl, consVals, metricReg, range_map_succ]
  | addPoint f x g v =>
    simp only [Instr.Safe, Bool.and_eq_true, decide_eq_true_eq] at hs
    refine ⟨_, .addPoint _ f x g v ?_, ?_⟩
    · simp only
      rw [getD_range_map _ _ hs.1.1.1, getD_range_map _ _ hs.1.1.2, getD_range_map _ _ hs.1.2, getD_range_map _ _ hs.2]
      exact hm
    · constructor <;> simp_all [Instr.next, Instr.nextDecl, consVals, metricReg]
  | constr e k =>
    simp only [Instr.Safe, decide_eq_true_eq] at hs
    refine ⟨_, .constr _ e k, ?_⟩
    constructor <;> simp_all [Instr.next, Instr.nextDecl, consVals, metricReg, List.getD]
  | metric e =>
    simp only [Instr.Safe, decide_eq_true_eq] at hs
    refine ⟨_, .metric _ e, ?_⟩
    constructor <;> simp_all [Instr.next, Instr.nextDecl, consVals, metricReg, List.getD]
  | objective e =>
    refine ⟨_, .objective _ e, ?_⟩
    constructor <;> simp_all [Instr.next, Instr.nextDecl, consVals, metricReg, List.getD]

theorem consVals_cons (i : Instr) (is : List Instr) : consVals V (i :: is) = consVals V [i] ++ consVals V is := by
  cases i <;> rfl

theorem metricReg_cons (i : Instr) (is : List Instr) (m : Option ℕ) : metricReg (i :: is) m = metricReg is (metricReg [i] m) := by
  cases i <;> rfl

theorem exec_of_meets : ∀ (prog : List Instr) {n : Counts} {nd : ℕ} {cs : List (ℝ × Kind)} {m : Option ℕ},
    SafeProg prog n = true → MeetsAll SR env V prog n nd → ∀ {rr : RRegs E}, Agree V rr n nd cs m →
    ∃ rr', Exec SR env prog rr rr' ∧ rr'.cons = cs ++ consVals V prog ∧ rr'.metric = (metricReg prog m).map V.ex
  | [], n, nd, cs, m, _, _, rr, ha => ⟨rr, .nil _, by simp [ha.cons, consVals], by simp [ha.metric, metricReg]⟩
  | i :: is, n, nd, cs, m, hs, hm, rr, ha => by
    simp only [SafeProg, Bool.and_eq_true] at hs
    obtain ⟨rr1, h1, a1⟩ := step_of_meets hs.1 hm.1 ha
    obtain ⟨rr2, h2, c2, m2⟩ := exec_of_meets is hs.2 hm.2 a1
    exact ⟨rr2, .cons h1 h2, by rw [c2, consVals_cons i is, List.append_assoc], by rw [m2, metricReg_cons i is]⟩

/-- an assignment that satisfies the equations of a program is a real execution -/
theorem realExec_of_meets {fs : ℕ → CFun E} {prog : List Instr} (hs : SafeProg prog ⟨0, 0, 0⟩ = true)
    (hm : MeetsAll (fun k => (fs k).Sample) env V prog ⟨0, 0, 0⟩ 0) :
    ∃ rr : RRegs E, RealExec fs env prog rr ∧ rr.cons = consVals V prog ∧ rr.metric = (metricReg prog none).map V.ex := by
  have := exec_of_meets (m := none) (cs := []) prog hs hm (rr := RRegs.empty E) ⟨rfl, rfl, rfl, rfl, rfl, rfl⟩
  simpa [RealExec] using this

/-! ### From executions to assignments -/

/-- the assignment of an execution state -/
def RRegs.vals (rr : RRegs E) : Vals E := ⟨fun i => rr.pts.getD i 0, fun i => rr.exs.getD i 0, fun i => rr.fns.getD i 0⟩

def RRegs.counts (rr : RRegs E) : Counts := ⟨rr.pts.length, rr.exs.length, rr.fns.length⟩

/-- the registers of `a` are the first registers of `b` -/
structure RRegs.Prefix (a b : RRegs E) : Prop where
  pts : a.pts <+: b.pts
  exs : a.exs <+: b.exs
  fns : a.fns <+: b.fns

theorem RRegs.Prefix.rfl {a : RRegs E} : a.Prefix a := ⟨List.prefix_rfl, List.prefix_rfl, List.prefix_rfl⟩

theorem RRegs.Prefix.trans {a b c : RRegs E} (h : a.Prefix b) (h' : b.Prefix c) : a.Prefix c :=
  ⟨h.pts.trans h'.pts, h.exs.trans h'.exs, h.fns.trans h'.fns⟩

theorem step_prefix {i : Instr} {a b : RRegs E} (h : Step SR env i a b) : a.Prefix b := by
  cases h <;> exact ⟨by simp, by simp, by simp⟩

theorem exec_prefix {prog : List Instr} {a b : RRegs E} (h : Exec SR env prog a b) : a.Prefix b := by
  induction h with
  | nil => exact .rfl
  | cons h _ ih => exact (step_prefix h).trans ih

theorem prefix_getD {α : Type} {l l' : List α} (h : l <+: l') {i : ℕ} (hi : i < l.length) (d : α) : l'.getD i d = l.getD i d := by
  obtain ⟨t, rfl⟩ := h
  simp [List.getD, List.getElem?_append_left hi]

theorem PE.val_vals {a b : RRegs E} (h : a.Prefix b) (e : PE) (hs : e.Safe a.pts.length = true) :
    e.val env b.vals = e.den env a.pts := by
  induction e with
  | reg i => exact prefix_getD h.pts (by simpa [PE.Safe] using hs) _
  | _ => simp_all [PE.Safe, PE.den, PE.val]

theorem EE.val_vals {a b : RRegs E} (h : a.Prefix b) (e : EE) (hs : e.Safe a.pts.length a.exs.length = true) :
    e.val env b.vals = e.den env a.pts a.exs := by
  induction e with
  | reg i => exact prefix_getD h.exs (by simpa [EE.Safe] using hs) _
  | inner x y =>
    simp only [EE.Safe, Bool.and_eq_true] at hs
    simp only [EE.den, EE.val, PE.val_vals h x hs.1, PE.val_vals h y hs.2]
  | pow x m =>
    simp only [EE.Safe, Bool.and_eq_true] at hs
    simp only [EE.den, EE.val, PE.val_vals h x hs.1]
  | _ => simp_all [EE.Safe, EE.den, EE.val]

theorem FE.val_vals {a b : RRegs E} (h : a.Prefix b) (e : FE) (hs : e.Safe a.fns.length = true) :
    e.val b.vals = e.den a.fns := by
  induction e with
  | reg i => exact prefix_getD h.fns (by simpa [FE.Safe] using hs) _
  | _ => simp_all [FE.Safe, FE.den, FE.val]

theorem prefix_new {α : Type} {l l' : List α} {x : α} {t : List α} (h : l ++ x :: t <+: l') (d : α) :
    l'.getD l.length d = x := by
  rw [prefix_getD h (by simp)]
  simp [List.getD]

theorem prefix_new2 {α : Type} {l l' : List α} {x y : α} {t : List α} (h : l ++ x :: y :: t <+: l') (d : α) :
    l'.getD (l.length + 1) d = y := by
  rw [prefix_getD h (by simp)]
  simp [List.getD]

theorem step_counts {i : Instr} {a b : RRegs E} (h : Step SR env i a b) :
    b.counts = i.next a.counts ∧ b.ndecl = i.nextDecl a.ndecl := by
  cases h <;> simp [RRegs.counts, Instr.next, Instr.nextDecl]

theorem step_meets {i : Instr} {a b c : RRegs E} (h : Step SR env i a b) (hs : i.Safe a.counts = true) (hp : b.Prefix c) :
    i.Meets SR env c.vals a.counts a.ndecl := by
  have hpa : a.Prefix c := (step_prefix h).trans hp
  cases h with
  | declare _ d => exact prefix_new hp.fns _
  | fn _ e =>
    show c.fns.getD _ 0 = _
    rw [FE.val_vals hpa e hs]
    exact prefix_new hp.fns _
  | pt _ e =>
    show c.pts.getD _ 0 = _
    rw [PE.val_vals hpa e hs]
    exact prefix_new hp.pts _
  | ex _ e =>
    show c.exs.getD _ 0 = _
    rw [EE.val_vals hpa e hs]
    exact prefix_new hp.exs _
  | initial _ => trivial
  | stationary _ f x v h =>
    simp only [Instr.Safe, decide_eq_true_eq] at hs
    simp only [RRegs.counts] at hs
    refine ⟨?_, prefix_new2 hp.pts _⟩
    show SumSample SR (c.fns.getD f 0) (c.pts.getD a.pts.length 0) (c.pts.getD (a.pts.length + 1) 0) (c.exs.getD a.exs.length 0)
    rw [prefix_new hp.pts, prefix_new2 hp.pts, prefix_new hp.exs, prefix_getD hpa.fns hs]
    exact h
  | oracle _ f x g v h =>
    simp only [Instr.Safe, Bool.and_eq_true, decide_eq_true_eq] at hs
    simp only [RRegs.counts] at hs
    show SumSample SR (c.fns.getD f 0) (c.pts.getD x 0) (c.pts.getD a.pts.length 0) (c.exs.getD a.exs.length 0)
    rw [prefix_new hp.pts, prefix_new hp.exs, prefix_getD hpa.fns hs.1, prefix_getD hpa.pts hs.2]
    exact h
  | gradient _ f x g v h =>
    simp only [Instr.Safe, Bool.and_eq_true, decide_eq_true_eq] at hs
    simp only [RRegs.counts] at hs
    refine ⟨v, ?_⟩
    show SumSample SR (c.fns.getD f 0) (c.pts.getD x 0) (c.pts.getD a.pts.length 0) v
    rw [prefix_new hp.pts, prefix_getD hpa.fns hs.1, prefix_getD hpa.pts hs.2]
    exact h
  | value _ f x g v h =>
    simp only [Instr.Safe, Bool.and_eq_true, decide_eq_true_eq] at hs
    simp only [RRegs.counts] at hs
    refine ⟨g, ?_⟩
    show SumSample SR (c.fns.getD f 0) (c.pts.getD x 0) g (c.exs.getD a.exs.length 0)
    rw [prefix_new hp.exs, prefix_getD hpa.fns hs.1, prefix_getD hpa.pts hs.2]
    exact h
  | prox _ x0 f gamma x g v h hx =>
    simp only [Instr.Safe, Bool.and_eq_true, decide_eq_true_eq] at hs
    simp only [RRegs.counts] at hs
    show SumSample SR (c.fns.getD f 0) (c.pts.getD a.pts.length 0) (c.pts.getD (a.pts.length + 1) 0) (c.exs.getD a.exs.length 0) ∧
      c.pts.getD a.pts.length 0 + gamma.eval env • c.pts.getD (a.pts.length + 1) 0 = c.pts.getD x0 0
    rw [prefix_new hp.pts, prefix_new2 hp.pts, prefix_new hp.exs, prefix_getD hpa.fns hs.2, prefix_getD hpa.pts hs.1]
    exact ⟨h, hx⟩
  | conj _ g f x v h =>
    simp only [Instr.Safe, Bool.and_eq_true, decide_eq_true_eq] at hs
    simp only [RRegs.counts] at hs
    refine ⟨v, ?_⟩
    show SumSample SR (c.fns.getD f 0) (c.pts.getD a.pts.length 0) (c.pts.getD g 0) v
    rw [prefix_new hp.pts, prefix_getD hpa.fns hs.2, prefix_getD hpa.pts hs.1]
    exact h
  | addPoint _ f x g v h =>
    simp only [Instr.Safe, Bool.and_eq_true, decide_eq_true_eq] at hs
    simp only [RRegs.counts] at hs
    show SumSample SR (c.fns.getD f 0) (c.pts.getD x 0) (c.pts.getD g 0) (c.exs.getD v 0)
    rw [prefix_getD hpa.fns hs.1.1.1, prefix_getD hpa.pts hs.1.1.2, prefix_getD hpa.pts hs.1.2, prefix_getD hpa.exs hs.2]
    exact h
  | constr _ e k => trivial
  | metric _ e => trivial
  | objective _ e => trivial

theorem exec_meets {prog : List Instr} {a b : RRegs E} (h : Exec SR env prog a b) :
    ∀ {c : RRegs E}, SafeProg prog a.counts = true → b.Prefix c → MeetsAll SR env c.vals prog a.counts a.ndecl := by
  induction h with
  | nil => intros; trivial
  | cons h t ih =>
    intro c hs hp
    simp only [SafeProg, Bool.and_eq_true] at hs
    have hc := step_counts h
    refine ⟨step_meets h hs.1 ((exec_prefix t).trans hp), ?_⟩
    have := ih (c := c) (by rw [hc.1]; exact hs.2) hp
    rwa [hc.1, hc.2] at this

theorem step_cons {i : Instr} {a b c : RRegs E} (h : Step SR env i a b) (hs : i.Safe a.counts = true) (hp : b.Prefix c) :
    b.cons = a.cons ++ consVals c.vals [i] := by
  have hpa : a.Prefix c := (step_prefix h).trans hp
  cases h with
  | constr _ e k =>
    simp only [Instr.Safe, decide_eq_true_eq] at hs
    simp only [RRegs.counts] at hs
    show a.cons ++ [(a.exs.getD e 0, k)] = a.cons ++ [(c.exs.getD e 0, k)]
    rw [prefix_getD hpa.exs hs]
  | _ => simp [consVals]

theorem exec_cons {prog : List Instr} {a b : RRegs E} (h : Exec SR env prog a b) :
    ∀ {c : RRegs E}, SafeProg prog a.counts = true → b.Prefix c → b.cons = a.cons ++ consVals c.vals prog := by
  induction h with
  | nil => intros; simp [consVals]
  | cons h t ih =>
    intro c hs hp
    simp only [SafeProg, Bool.and_eq_true] at hs
    have hc := step_counts h
    rw [consVals_cons, ih (c := c) (by rw [hc.1]; exact hs.2) hp, step_cons h hs.1 ((exec_prefix t).trans hp), List.append_assoc]

/-- the registers of a real execution satisfy the equations of the program -/
theorem meets_of_realExec {fs : ℕ → CFun E} {prog : List Instr} (hs : SafeProg prog ⟨0, 0, 0⟩ = true) {rr : RRegs E}
    (h : RealExec fs env prog rr) :
    MeetsAll (fun k => (fs k).Sample) env rr.vals prog ⟨0, 0, 0⟩ 0 ∧ rr.cons = consVals rr.vals prog :=
  ⟨exec_meets h hs .rfl, by simpa [RRegs.empty] using exec_cons h hs .rfl⟩

end Verif
