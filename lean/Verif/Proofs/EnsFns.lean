import Verif.Proofs.Kcl
import Verif.Proofs.Robust

/-!
# What every execution satisfies: functions, samples and the metric
-/

namespace Verif
open Build

variable {α β σ : Type} {E : Type} [NormedAddCommGroup E] [InnerProductSpace ℝ E]

section
variable (SR : ℕ → E → E → ℝ → Prop) (env : Name → ℝ) (V : Vals E)

/-- as `Ens`, if `nd` functions have been declared before; `Q` is also told how many are declared after -/
def EnsN (c : Build α) (nd : ℕ) (Q : α → ℕ → Prop) : Prop :=
  ∀ n, MeetsAll SR env V (c n).2.2 n nd → ConsOk (consVals V (c n).2.2) → Q (c n).1 ((c n).2.2.foldl (fun k i => i.nextDecl k) nd)

/-- as `Ens`; `Q` is told the register of the metric -/
def EnsM (c : Build α) (Q : Option ℕ → Prop) : Prop :=
  ∀ n nd m, MeetsAll SR env V (c n).2.2 n nd → ConsOk (consVals V (c n).2.2) → Q (metricReg (c n).2.2 m)
end

variable {SR : ℕ → E → E → ℝ → Prop} {env : Name → ℝ} {V : Vals E}

theorem EnsN.ret {a : α} {nd : ℕ} {Q : α → ℕ → Prop} (h : Q a nd) : EnsN SR env V (ret a) nd Q := fun _ _ _ => h

theorem EnsN.mono {c : Build α} {nd : ℕ} {Q Q' : α → ℕ → Prop} (h : EnsN SR env V c nd Q) (hq : ∀ a n, Q a n → Q' a n) : EnsN SR env V c nd Q' :=
  fun n h1 h2 => hq _ _ (h n h1 h2)

theorem EnsN.andThen {c : Build α} {f : α → Build β} {nd : ℕ} {P : α → ℕ → Prop} {Q : β → ℕ → Prop} (hc : Coh c) (h : EnsN SR env V c nd P)
    (hf : ∀ a nd', P a nd' → EnsN SR env V (f a) nd' Q) : EnsN SR env V (andThen c f) nd Q := by
  intro n h1 h2
  simp only [Build.andThen] at h1 h2 ⊢
  rw [meetsAll_append] at h1
  rw [consVals_append] at h2
  rw [← hc n] at h1
  rw [List.foldl_append]
  exact hf _ _ (h n h1.1 fun x hx => h2 x (List.mem_append_left _ hx)) _ h1.2 fun x hx => h2 x (List.mem_append_right _ hx)

theorem EnsN.bind {c : Build α} {f : α → Build β} {nd : ℕ} {P : α → ℕ → Prop} {Q : β → ℕ → Prop} (hc : Coh c) (h : EnsN SR env V c nd P)
    (hf : ∀ a nd', P a nd' → EnsN SR env V (f a) nd' Q) : EnsN SR env V (c >>= f) nd Q := EnsN.andThen hc h hf

theorem EnsN.define (mu : ℚ) (L : Option ℚ) (nd : ℕ) : EnsN SR env V (define mu L) nd fun r n => r.val V = Finsupp.single nd 1 ∧ n = nd + 1 :=
  fun _ h _ => ⟨h.1, rfl⟩

theorem EnsN.fn (f : FE) (nd : ℕ) : EnsN SR env V (fn f) nd fun r n => r.val V = f.val V ∧ n = nd := fun _ h _ => ⟨h.1, rfl⟩

theorem EnsN.loop {body : σ → α → Build σ} (hc : ∀ s a, Coh (body s a)) (I : ℕ → σ → ℕ → Prop) : ∀ {l : List α} {s : σ} {j nd : ℕ}, I j s nd →
    (∀ s a j nd, I j s nd → EnsN SR env V (body s a) nd fun s' n => I (j + 1) s' n) →
    EnsN SR env V (loop body l s) nd fun s' n => I (j + l.length) s' n
  | [], _, _, _, h, _ => .ret h
  | a :: l, s, j, nd, h, hb => .andThen (hc s a) (hb s a j nd h) fun s' n hs =>
      (EnsN.loop hc I (l := l) hs hb).mono fun _ _ ht => by rwa [List.length_cons, show j + (l.length + 1) = j + 1 + l.length by omega]

theorem ensN_defineSum (mu : ℚ) (L : Option ℚ) (m : ℕ) : EnsN SR env V (defineSum mu L m) 0 fun r _ =>
    (r.1.length = m + 1 ∧ ∀ (i : ℕ) (e : FE), r.1[i]? = some e → e.val V = Finsupp.single i 1) ∧ r.2.val V = ∑ i ∈ Finset.range (m + 1), Finsupp.single i 1 := by
  unfold defineSum
  refine EnsN.bind (.define _ _) (.define _ _ _) ?_
  rintro f0 nd ⟨h0, rfl⟩
  refine (EnsN.loop (I := fun j s n => n = j + 1 ∧ (s.1.length = j + 1 ∧ ∀ (i : ℕ) (e : FE), s.1[i]? = some e → e.val V = Finsupp.single i 1) ∧
    s.2.val V = ∑ i ∈ Finset.range (j + 1), Finsupp.single i 1) (fun _ _ => .andThen (.define _ _) fun _ => .andThen (.fn _) fun _ => .ret _)
    (l := List.range m) (s := ([f0], f0)) (j := 0) ⟨by omega, ⟨rfl, ?_⟩, by simpa using h0⟩ ?_).mono ?_
  · intro i e he
    cases i with
    | zero => simp at he; subst he; exact h0
    | succ i => simp at he
  · rintro ⟨l, f⟩ a j nd ⟨rfl, ⟨h1, h2⟩, h3⟩
    refine EnsN.bind (.define _ _) (.define _ _ _) ?_
    rintro g nd ⟨h4, rfl⟩
    refine EnsN.bind (.fn _) (.fn _ _) ?_
    rintro q nd ⟨h5, rfl⟩
    refine EnsN.ret ⟨rfl, ⟨by simpa using h1, ?_⟩, ?_⟩
    · intro i e he
      simp only at he
      by_cases hi : i < l.length
      · rw [List.getElem?_append_left hi] at he; exact h2 i e he
      · obtain ⟨hl, _⟩ := List.getElem?_eq_some_iff.1 he
        have hl : i = l.length := by simp at hl; omega
        subst hl
        simp at he
        subst he
        rw [h4, ← h1]
    · rw [h5, FE.val_add', h4, Finset.sum_range_succ, ← h3]
  · rintro r n ⟨-, h1, h2⟩
    rw [List.length_range, zero_add] at h1 h2
    exact ⟨h1, h2⟩

theorem EnsM.andThen {c : Build α} {f : α → Build β} {P : α → Prop} {Q : Option ℕ → Prop} (hc : Coh c) (h : Ens SR env V c P)
    (hf : ∀ a, P a → EnsM SR env V (f a) Q) : EnsM SR env V (andThen c f) Q := by
  intro n nd m h1 h2
  simp only [Build.andThen] at h1 h2 ⊢
  rw [meetsAll_append] at h1
  rw [consVals_append] at h2
  rw [← hc n] at h1
  rw [show ∀ (a b : List Instr) m, metricReg (a ++ b) m = metricReg b (metricReg a m) from fun a b => by
    induction a with
    | nil => intro m; rfl
    | cons i a ih => intro m; cases i <;> exact ih _]
  exact hf _ (h n nd h1.1 fun x hx => h2 x (List.mem_append_left _ hx)) _ _ _ h1.2 fun x hx => h2 x (List.mem_append_right _ hx)

theorem EnsM.bind {c : Build α} {f : α → Build β} {P : α → Prop} {Q : Option ℕ → Prop} (hc : Coh c) (h : Ens SR env V c P)
    (hf : ∀ a, P a → EnsM SR env V (f a) Q) : EnsM SR env V (c >>= f) Q := EnsM.andThen hc h hf

/-- the first call of a program -/
theorem EnsM.start {c : Build α} {f : α → Build β} {P : α → ℕ → Prop} {Q : Option ℕ → Prop} (hc : Coh c) (h : EnsN SR env V c 0 P)
    (hf : ∀ a n, P a n → EnsM SR env V (f a) Q) (h1 : MeetsAll SR env V (c >>= f).prog ⟨0, 0, 0⟩ 0) (h2 : ConsOk (consVals V (c >>= f).prog)) :
    Q (metricReg (c >>= f).prog none) := by
  have e : (c >>= f).prog = (c ⟨0, 0, 0⟩).2.2 ++ (f (c ⟨0, 0, 0⟩).1 (c ⟨0, 0, 0⟩).2.1).2.2 := rfl
  rw [e] at h1 h2 ⊢
  rw [meetsAll_append] at h1
  rw [consVals_append] at h2
  rw [← hc ⟨0, 0, 0⟩] at h1
  rw [show ∀ (a b : List Instr) m, metricReg (a ++ b) m = metricReg b (metricReg a m) from fun a b => by
    induction a with
    | nil => intro m; rfl
    | cons i a ih => intro m; cases i <;> exact ih _]
  exact hf _ _ (h _ h1.1 fun x hx => h2 x (List.mem_append_left _ hx)) _ _ _ h1.2 fun x hx => h2 x (List.mem_append_right _ hx)

theorem EnsM.finishMetric (e1 e2 d : EE) : EnsM SR env V (finishMetric e1 e2 d) fun m =>
    ∃ e, m = some e ∧ V.ex e = e2.val env V - (e1.val env V - d.val env V) := by
  intro n nd m h _
  exact ⟨_, rfl, h.1⟩

theorem Ens.fnArg (f : FE) : Ens SR env V (fnArg f) fun i => V.fn i = f.val V := by
  cases f with
  | reg i => exact .ret rfl
  | _ => exact fun _ _ h _ => h.1

theorem Ens.ptArg (e : PE) : Ens SR env V (ptArg e) fun i => V.pt i = e.val env V := by
  cases e with
  | reg i => exact .ret rfl
  | _ => exact fun _ _ h _ => h.1

theorem Ens.oracle (f : FE) (x : PE) : Ens SR env V (Build.oracle f x) fun r => SumSample SR (f.val V) (x.val env V) (r.1.val env V) (r.2.val env V) := by
  refine .andThen (.fnArg f) ((Ens.fnArg f).mono fun i hi => .andThen (.ptArg x) ((Ens.ptArg x).mono fun j hj n nd h _ => ?_))
  rw [← hi, ← hj]
  exact h.1

theorem Ens.stationary (f : FE) : Ens SR env V (Build.stationary f) fun r => SumSample SR (f.val V) (r.1.val env V) 0 (r.2.2.val env V) ∧ r.2.1.val env V = 0 := by
  refine .andThen (.fnArg f) ((Ens.fnArg f).mono fun i hi n nd h _ => ?_)
  rw [← hi]
  have := h.1
  simp only [Instr.Meets] at this
  obtain ⟨h1, h2⟩ := this
  rw [h2] at h1
  exact ⟨h1, h2⟩

theorem Ens.conj (x : PE) (f : FE) : Ens SR env V (Build.conj x f) fun r => ∃ v, SumSample SR (f.val V) (r.val env V) (x.val env V) v := by
  refine .andThen (.ptArg x) ((Ens.ptArg x).mono fun i hi => .andThen (.fnArg f) ((Ens.fnArg f).mono fun j hj n nd h _ => ?_))
  have := h.1
  simp only [Instr.Meets] at this
  rw [← hi, ← hj]
  exact this

theorem samples_of_range {m : ℕ} {x g : E} {v : ℝ} (h : SumSample SR (∑ i ∈ Finset.range m, Finsupp.single i 1) x g v) :
    ∃ (y : ℕ → E) (w : ℕ → ℝ), (∀ i < m, SR i x (y i) (w i)) ∧ g = ∑ i ∈ Finset.range m, y i ∧ v = ∑ i ∈ Finset.range m, w i := by
  obtain ⟨G, W, h1, rfl, rfl⟩ := h
  have hv : ∀ i, (∑ i ∈ Finset.range m, Finsupp.single i (1 : ℝ)) i = if i < m then 1 else 0 := by
    intro i
    rw [Finsupp.finsetSum_apply]
    simp [Finsupp.single_apply]
  have hsup : (∑ i ∈ Finset.range m, Finsupp.single i (1 : ℝ)).support = Finset.range m := by
    ext i
    simp [Finsupp.mem_support_iff, hv]
  refine ⟨G, W, fun i hi => h1 i (by rw [hsup]; simpa using hi), ?_, ?_⟩
  · rw [Finsupp.sum, hsup]
    exact Finset.sum_congr rfl fun i hi => by rw [hv, if_pos (Finset.mem_range.1 hi), one_smul]
  · rw [Finsupp.sum, hsup]
    exact Finset.sum_congr rfl fun i hi => by rw [hv, if_pos (Finset.mem_range.1 hi), one_mul]

theorem coh_gradSumStep (x : PE) (s : Option PE) (f : FE) : Coh (gradSumStep x s f) :=
  .andThen (.oracle _ _) fun _ => .andThen (.addTo _ _) fun _ => .ret _

/-- the gradients of all functions at a point, and their sum -/
theorem ens_gradSum {fs : List FE} {m : ℕ} (hl : fs.length = m) (hf : ∀ (i : ℕ) (e : FE), fs[i]? = some e → e.val V = Finsupp.single i 1) (x : PE) :
    Ens SR env V (loop (gradSumStep x) fs none) fun s => ∃ (y : ℕ → E) (w : ℕ → ℝ), (∀ i < m, SR i (x.val env V) (y i) (w i)) ∧
      OptVal env V s m (∑ i ∈ Finset.range m, y i) := by
  have := Ens.loop (SR := SR) (env := env) (V := V) (coh_gradSumStep x) (fun j s => ∃ (y : ℕ → E) (w : ℕ → ℝ), (∀ i < j, SR i (x.val env V) (y i) (w i)) ∧
    OptVal env V s j (∑ i ∈ Finset.range j, y i)) (l := fs) (s := none) (j := 0) ⟨fun _ => 0, fun _ => 0, by simp, rfl, by simp⟩ (by
    rintro s f j hj ⟨y, w, h1, h2⟩
    simp only [zero_add] at *
    refine Ens.bind (.oracle _ _) (.oracle _ _) ?_
    rintro ⟨g, v⟩ hg
    rw [hf j f hj] at hg
    have hg := sample_of_single hg
    refine Ens.bind (.addTo _ _) (.addTo h2 _) fun z hz => .pure ⟨Function.update y j (g.val env V), Function.update w j (v.val env V), ?_, ?_⟩
    · intro i hi
      by_cases hij : i = j
      · subst hij; simpa using hg
      · simp [hij]; exact h1 i (by omega)
    · show z.val env V = _
      rw [hz, Finset.sum_range_succ]
      simp only [Function.update_self]
      congr 1
      exact Finset.sum_congr rfl fun i hi => by
        rw [Finset.mem_range] at hi
        rw [Function.update_of_ne (by omega)])
  rw [hl, zero_add] at this
  exact this

end Verif
