import Verif.Proofs.Verification
import Verif.Model.Verification

/-!
# The variables a circuit function reads

A logic of the builders: all their calls read only the variables `V`, and their results are such expressions.
-/

namespace Verif
open Build

set_option linter.unusedSimpArgs false
section uses
variable {V : Set Name} {b : Prop} {α β σ : Type}

variable (V b) in
/-- a call that reads only the variables `V`, adds no number except 0, and is `subgrad_conjugate` only if `b` -/
def Instr.Plainly (i : Instr) : Prop := i.Clean V ∧ ((∃ g f, i = .conj g f) → b)

variable (V b) in
/-- all calls are of this kind, and the result satisfies `Q` -/
def Uses (c : Build α) (Q : α → Prop) : Prop := ∀ n, (∀ i ∈ (c n).2.2, i.Plainly V b) ∧ Q (c n).1

theorem Uses.ret {a : α} {Q : α → Prop} (h : Q a) : Uses V b (ret a) Q := fun _ => ⟨by simp [Build.ret], h⟩

theorem Uses.andThen {c : Build α} {f : α → Build β} {Q : α → Prop} {R : β → Prop} (h : Uses V b c Q) (h' : ∀ a, Q a → Uses V b (f a) R) :
    Uses V b (andThen c f) R := by
  intro n
  obtain ⟨h1, h2⟩ := h n
  obtain ⟨h3, h4⟩ := h' _ h2 (c n).2.1
  refine ⟨fun i hi => ?_, h4⟩
  rcases List.mem_append.1 hi with hi | hi
  · exact h1 i hi
  · exact h3 i hi

theorem Uses.bind {c : Build α} {f : α → Build β} {Q : α → Prop} {R : β → Prop} (h : Uses V b c Q) (h' : ∀ a, Q a → Uses V b (f a) R) :
    Uses V b (c >>= f) R := h.andThen h'

theorem Uses.pure {a : α} {Q : α → Prop} (h : Q a) : Uses V b (Pure.pure a) Q := Uses.ret h

theorem Uses.emit {i : Instr} {a : Counts → α} {Q : α → Prop} (hi : i.Plainly V b) (h : ∀ n, Q (a n)) : Uses V b (emit i a) Q := by
  intro n
  refine ⟨fun j hj => ?_, h n⟩
  rw [List.mem_singleton.1 hj]
  exact hi

theorem plainly_of {i : Instr} (h : i.Clean V) (h' : ∀ g f, i ≠ .conj g f) : i.Plainly V b := ⟨h, fun ⟨g, f, e⟩ => (h' g f e).elim⟩

theorem Uses.pt {e : PE} (h : e.Clean V) : Uses V b (pt e) fun e => e.Clean V := .emit (plainly_of h (by simp)) fun _ => trivial
theorem Uses.ex {e : EE} (h : e.Clean V) : Uses V b (ex e) fun e => e.Clean V := .emit (plainly_of h (by simp)) fun _ => trivial
theorem Uses.fn (f : FE) : Uses V b (fn f) fun _ => True := .emit (plainly_of trivial (by simp)) fun _ => trivial
theorem Uses.ptArg {e : PE} (h : e.Clean V) : Uses V b (ptArg e) fun _ => True := by
  cases e <;> first | exact .ret trivial | exact .emit (plainly_of h (by simp)) fun _ => trivial
theorem Uses.exArg {e : EE} (h : e.Clean V) : Uses V b (exArg e) fun _ => True := by
  cases e <;> first | exact .ret trivial | exact .emit (plainly_of h (by simp)) fun _ => trivial
theorem Uses.fnArg (f : FE) : Uses V b (fnArg f) fun _ => True := by
  cases f <;> first | exact .ret trivial | exact .emit (plainly_of trivial (by simp)) fun _ => trivial
theorem Uses.define (mu : ℚ) (L : Option ℚ) : Uses V b (define mu L) fun _ => True := .emit (plainly_of trivial (by simp)) fun _ => trivial
theorem Uses.initial : Uses V b initial fun e => e.Clean V := .emit (plainly_of trivial (by simp)) fun _ => trivial
theorem Uses.stationary (f : FE) : Uses V b (stationary f) fun t => t.1.Clean V ∧ t.2.1.Clean V ∧ t.2.2.Clean V :=
  .andThen (.fnArg f) fun _ _ => .emit (plainly_of trivial (by simp)) fun _ => ⟨trivial, trivial, trivial⟩
theorem Uses.oracle (f : FE) {x : PE} (h : x.Clean V) : Uses V b (Build.oracle f x) fun t => t.1.Clean V ∧ t.2.Clean V :=
  .andThen (.fnArg f) fun _ _ => .andThen (.ptArg h) fun _ _ => .emit (plainly_of trivial (by simp)) fun _ => ⟨trivial, trivial⟩
theorem Uses.prox {x : PE} (f : FE) {g : Sym} (h : x.Clean V) (hg : ∀ n ∈ g.vars, n ∈ V) :
    Uses V b (prox x f g) fun t => t.1.Clean V ∧ t.2.1.Clean V ∧ t.2.2.Clean V :=
  .andThen (.ptArg h) fun _ _ => .andThen (.fnArg f) fun _ _ => .emit (plainly_of hg (by simp)) fun _ => ⟨trivial, trivial, trivial⟩
theorem Uses.conj {x : PE} (f : FE) (h : x.Clean V) (hb : b) : Uses V b (conj x f) fun e => e.Clean V :=
  .andThen (.ptArg h) fun _ _ => .andThen (.fnArg f) fun _ _ => .emit ⟨trivial, fun _ => hb⟩ fun _ => trivial
theorem Uses.equality {e : EE} (h : e.Clean V) : Uses V b (equality e) fun _ => True :=
  .andThen (.exArg h) fun _ _ => .emit (plainly_of trivial (by simp)) fun _ => trivial
theorem Uses.metric {e : EE} (h : e.Clean V) : Uses V b (metric e) fun _ => True :=
  .andThen (.exArg h) fun _ _ => .emit (plainly_of trivial (by simp)) fun _ => trivial
theorem Uses.loop {body : σ → α → Build σ} {I : σ → Prop} : ∀ {l : List α}, (∀ s, I s → ∀ a ∈ l, Uses V b (body s a) I) → ∀ {s}, I s →
    Uses V b (loop body l s) I
  | [], _, _, hs => .ret hs
  | a :: _, h, s, hs => .andThen (h s hs a List.mem_cons_self) fun _ h' => Uses.loop (fun s hs x hx => h s hs x (List.mem_cons_of_mem _ hx)) h'
theorem Uses.mapB {body : α → Build β} {Q : β → Prop} : ∀ {l : List α}, (∀ a ∈ l, Uses V b (body a) Q) → Uses V b (mapB body l) fun r => ∀ x ∈ r, Q x
  | [], _ => .ret (by simp)
  | a :: _, h => .andThen (h a List.mem_cons_self) fun _ h1 => .andThen (Uses.mapB fun x hx => h x (List.mem_cons_of_mem _ hx)) fun _ h2 =>
      .ret (by intro x hx; rcases List.mem_cons.1 hx with rfl | hx; exact h1; exact h2 x hx)

variable (V) in
/-- an accumulator -/
def OptClean (o : Option PE) : Prop := ∀ z, o = some z → z.Clean V
variable (V) in
def OptCleanE (o : Option EE) : Prop := ∀ z, o = some z → z.Clean V

theorem OptClean.getD {o : Option PE} (h : OptClean V o) : (o.getD (.reg 0)).Clean V := by
  cases o with
  | none => trivial
  | some z => exact h z rfl
theorem OptCleanE.getD {o : Option EE} (h : OptCleanE V o) : (o.getD (.reg 0)).Clean V := by
  cases o with
  | none => trivial
  | some z => exact h z rfl
theorem OptClean.none : OptClean V none := by rintro z ⟨⟩
theorem OptCleanE.none : OptCleanE V none := by rintro z ⟨⟩
theorem OptClean.some {z : PE} (h : z.Clean V) : OptClean V (some z) := by rintro z ⟨⟩; exact h
theorem OptCleanE.some {z : EE} (h : z.Clean V) : OptCleanE V (some z) := by rintro z ⟨⟩; exact h

theorem Uses.addTo {z : Option PE} {x : PE} (hz : OptClean V z) (hx : x.Clean V) : Uses V b (addTo z x) fun e => e.Clean V := by
  cases z with
  | none => exact .ret hx
  | some z => exact .pt ⟨hz z rfl, hx⟩
theorem Uses.subFrom {z : Option PE} {x : PE} (hz : OptClean V z) (hx : x.Clean V) : Uses V b (subFrom z x) fun e => e.Clean V := by
  cases z with
  | none => exact .pt hx
  | some z => exact .pt ⟨hz z rfl, hx⟩
theorem Uses.addEx {z : Option EE} {x : EE} (hz : OptCleanE V z) (hx : x.Clean V) : Uses V b (addEx z x) fun e => e.Clean V := by
  cases z with
  | none => exact .ex ⟨hx, rfl⟩
  | some z => exact .ex ⟨hz z rfl, hx⟩
theorem Uses.defineSum (mu : ℚ) (L : Option ℚ) (m : ℕ) : Uses V b (defineSum mu L m) fun _ => True :=
  .bind (.define mu L) fun _ _ => .loop (I := fun _ => True) (fun _ _ _ _ => .bind (.define mu L) fun _ _ => .bind (.fn _) fun _ _ => .pure trivial) trivial
theorem Uses.finishMetric {e1 e2 d : EE} (h1 : e1.Clean V) (h2 : e2.Clean V) (h3 : d.Clean V) : Uses V b (finishMetric e1 e2 d) fun _ => True :=
  .bind (.metric ⟨h2, h1, h3⟩) fun _ _ => .pure trivial

variable (V) in
def AllClean (l : List PE) : Prop := ∀ e ∈ l, e.Clean V
theorem AllClean.append {l : List PE} (h : AllClean V l) {e : PE} (he : e.Clean V) : AllClean V (l ++ [e]) := by
  intro x hx
  rcases List.mem_append.1 hx with hx | hx
  · exact h x hx
  · rw [List.mem_singleton.1 hx]; exact he
theorem AllClean.nil : AllClean V [] := by simp [AllClean]

theorem mem_zip {α β : Type} {l : List α} {l' : List β} {a : α × β} (h : a ∈ l.zip l') : a.1 ∈ l ∧ a.2 ∈ l' := List.of_mem_zip h

variable {k : ℕ} {mu : ℚ} {L : Option ℚ} {R Cap Ind : ℚ}

theorem Uses.gradSum {x : PE} (hx : x.Clean V) (fs : List FE) : Uses V b (Build.loop (gradSumStep x) fs none) (OptClean V) :=
  .loop (I := OptClean V) (fun _ hs f _ => .bind (.oracle f hx) fun _ ht => .bind (.addTo hs ht.1) fun _ hz => .pure (.some hz)) .none

theorem uses_primalDecomposition (hV : ∀ n ∈ ["h", "alpha", "beta", "eta"], n ∈ V) : Uses V b (primalDecomposition k mu L Cap) fun _ => True := by
  simp only [List.mem_cons, List.not_mem_nil, or_false, forall_eq_or_imp, forall_eq] at hV
  unfold primalDecomposition
  refine .bind (.defineSum mu L k) ?_
  rintro ⟨fs, f⟩ -
  refine .bind (.stationary f) ?_
  rintro ⟨xs, ys, fst⟩ ⟨h1, h2, h3⟩
  refine .bind .initial fun z1 hz1 => .bind (.gradSum hz1 fs) fun s hs => ?_
  have hs := hs.getD
  refine .bind (.pt ?_) fun z15 hz15 => .bind (.gradSum hz15 fs) fun s' hs' => ?_
  · simp_all [PE.Clean, Sym.vars]
  have hs' := hs'.getD
  refine .bind (.pt ?_) fun z2 hz2 => .bind (.ex ?_) fun e1 he1 => .bind (.ex ?_) fun e2 he2 => .bind (.ex ?_) fun d hd => .finishMetric he1 he2 hd
  all_goals dsimp only at h1 h2; simp_all [PE.Clean, EE.Clean, Sym.vars]

theorem Uses.star {x : PE} (hx : x.Clean V) (fs : List FE) : Uses V b (Build.loop (starStep x) fs ([], none)) fun s => AllClean V s.1 ∧ OptClean V s.2 :=
  .loop (I := fun s : List PE × Option PE => AllClean V s.1 ∧ OptClean V s.2) (fun _ hs f _ => .bind (.oracle f hx) fun _ ht => .bind (.addTo hs.2 ht.1) fun _ hz =>
    .pure ⟨hs.1.append ht.1, .some hz⟩) ⟨.nil, .none⟩

theorem Uses.currents (m : ℕ) : Uses V b (Build.loop currentStep (List.range m) ([], none)) fun s => AllClean V s.1 ∧ OptClean V s.2 :=
  .loop (I := fun s : List PE × Option PE => AllClean V s.1 ∧ OptClean V s.2) (fun _ hs _ _ => .bind .initial fun _ hy => .bind (.subFrom hs.2 hy) fun _ hz =>
    .pure ⟨hs.1.append hy, .some hz⟩) ⟨.nil, .none⟩

variable (V) in
def AllClean3 (l : List (PE × PE × EE)) : Prop := ∀ t ∈ l, t.1.Clean V ∧ t.2.1.Clean V ∧ t.2.2.Clean V

theorem Uses.proxes {e : PE} (he : e.Clean V) {l : List PE} (hl : AllClean V l) (fs : List FE) :
    Uses V b (Build.loop (proxStep R e) (l.zip fs) ([], none)) fun s => AllClean3 V s.1 ∧ OptClean V s.2 := by
  refine .loop (I := fun s : List (PE × PE × EE) × Option PE => AllClean3 V s.1 ∧ OptClean V s.2) (fun s hs a ha => ?_) ⟨by simp [AllClean3], .none⟩
  have ha := hl _ (mem_zip ha).1
  refine .bind (.prox a.2 ⟨⟨by simp [Sym.vars], ha⟩, he⟩ (by simp [Sym.vars])) fun t ht => .bind (.addTo hs.2 ht.1) fun z hz => .pure ⟨?_, .some hz⟩
  intro x hx
  rcases List.mem_append.1 hx with hx | hx
  · exact hs.1 x hx
  · rw [List.mem_singleton.1 hx]; exact ht

theorem uses_admmConsensus (hV : ∀ n ∈ ["h", "alpha", "beta", "eta", "rho", "gamma"], n ∈ V) : Uses V b (admmConsensus k mu L R Ind) fun _ => True := by
  simp only [List.mem_cons, List.not_mem_nil, or_false, forall_eq_or_imp, forall_eq] at hV
  unfold admmConsensus
  refine .bind (.defineSum mu L _) ?_
  rintro ⟨fs, f⟩ -
  refine .bind (.stationary f) ?_
  rintro ⟨xs, ys, fst⟩ ⟨h1, h2, h3⟩
  refine .bind (.star h1 fs) ?_
  rintro ⟨yst, s⟩ ⟨hy, hs⟩
  have hs := hs.getD
  refine .bind (.equality ⟨hs, h2⟩) fun _ _ => .bind .initial fun e1 he1 => .bind (.currents _) ?_
  rintro ⟨iL, last⟩ ⟨hi, hl⟩
  have hi := hi.append hl.getD
  refine .bind (.proxes he1 hi fs) ?_
  rintro ⟨t15, e⟩ ⟨ht15, he⟩
  have he := he.getD
  dsimp only at h1 h2 h3 hy hs hi ht15 he ⊢
  refine .bind (.mapB (Q := fun e : PE => e.Clean V) fun a ha => .pt ?_) fun i15 hi15 => .bind (.pt he) fun e15 he15 => .bind (.proxes he15 hi15 fs) ?_
  · have h4 := hi _ (mem_zip ha).1
    have h5 := ht15 _ (mem_zip ha).2
    simp_all [PE.Clean, Sym.vars]
  rintro ⟨t2, e'⟩ ⟨ht2, he'⟩
  have he' := he'.getD
  dsimp only at ht2 he' ⊢
  refine .bind (.pt he') fun e2 he2 => .bind (.mapB (Q := fun e : PE => e.Clean V) fun a ha => .pt ?_) fun i2 hi2 => ?_
  · have h4 := hi _ (mem_zip ha).1
    have h5 := ht15 _ (mem_zip (mem_zip ha).2).1
    have h6 := ht2 _ (mem_zip (mem_zip ha).2).2
    simp_all [PE.Clean, Sym.vars]
  refine .bind (.ex ?_) fun E1 hE1 => .bind (.ex ?_) fun E2 hE2 => .bind (.ex ?_) fun D hD => ?_
  iterate 3 simp_all [PE.Clean, EE.Clean, Sym.vars]
  refine .bind (.loop (I := fun s => s.1.Clean V ∧ s.2.1.Clean V ∧ s.2.2.Clean V) (fun s hs a ha => ?_) ⟨hE1, hE2, hD⟩) ?_
  · have h4 := hi _ (mem_zip (mem_zip ha).1).1
    have h5 := hi2 _ (mem_zip (mem_zip ha).1).2
    have h6 := ht2 _ (mem_zip (mem_zip ha).2).1
    have h7 := hy _ (mem_zip (mem_zip ha).2).2
    refine .bind (.ex ?_) fun _ h1 => .bind (.ex ?_) fun _ h2 => .bind (.ex ?_) fun _ h3 => .pure ⟨h1, h2, h3⟩
    all_goals simp_all [PE.Clean, EE.Clean, Sym.vars]
  rintro ⟨E1, E2, D⟩ ⟨hE1, hE2, hD⟩
  exact .bind (.finishMetric hE1 hE2 hD) fun _ _ => .pure trivial

theorem uses_admmEulerConsensus (hV : ∀ n ∈ ["h", "eta", "rho"], n ∈ V) : Uses V b (admmEulerConsensus k mu L R Ind) fun _ => True := by
  simp only [List.mem_cons, List.not_mem_nil, or_false, forall_eq_or_imp, forall_eq] at hV
  unfold admmEulerConsensus
  refine .bind (.defineSum mu L _) ?_
  rintro ⟨fs, f⟩ -
  refine .bind (.stationary f) ?_
  rintro ⟨xs, ys, fst⟩ ⟨h1, h2, h3⟩
  refine .bind (.star h1 fs) ?_
  rintro ⟨yst, s⟩ ⟨hy, hs⟩
  have hs := hs.getD
  refine .bind (.equality ⟨hs, h2⟩) fun _ _ => .bind (.currents _) ?_
  rintro ⟨iL, last⟩ ⟨hi, hl⟩
  have hi := hi.append hl.getD
  refine .bind .initial fun e1 he1 => .bind (.proxes he1 hi fs) ?_
  rintro ⟨t1, e⟩ ⟨ht1, he⟩
  have he := he.getD
  dsimp only at h1 h2 h3 hy hs hi ht1 he ⊢
  refine .bind (.mapB (Q := fun e : PE => e.Clean V) fun a ha => .pt ?_) fun i2 hi2 => .bind (.pt he) fun sx hsx => .bind (.equality ⟨he1, hsx⟩) fun _ _ =>
    .bind (.ex ?_) fun D hD => .bind (.loop (I := fun s => (OptCleanE V s.1.1 ∧ OptCleanE V s.1.2) ∧ s.2.Clean V) (fun s hs a ha => ?_)
      ⟨⟨.none, .none⟩, hD⟩) ?_
  · have h4 := hi _ (mem_zip ha).1
    have h5 := ht1 _ (mem_zip ha).2
    simp_all [PE.Clean, Sym.vars]
  · simp_all [PE.Clean, EE.Clean, Sym.vars]
  · have h4 := hi _ (mem_zip (mem_zip ha).1).1
    have h5 := hi2 _ (mem_zip (mem_zip ha).1).2
    have h6 := ht1 _ (mem_zip (mem_zip ha).2).1
    have h7 := hy _ (mem_zip (mem_zip ha).2).2
    refine .bind (.addEx hs.1.1 ?_) fun _ h1 => .bind (.addEx hs.1.2 ?_) fun _ h2 => .bind (.ex ?_) fun _ h3 => .pure ⟨⟨.some h1, .some h2⟩, h3⟩
    all_goals simp_all [PE.Clean, EE.Clean, Sym.vars]
  rintro ⟨⟨E1, E2⟩, D⟩ ⟨⟨hE1, hE2⟩, hD⟩
  exact .bind (.finishMetric hE1.getD hE2.getD hD) fun _ _ => .pure trivial

theorem Uses.conjs (hb : b) {l : List PE} (hl : AllClean V l) (fs : List FE) :
    Uses V b (Build.loop conjStep (l.zip fs) ([], none)) fun s => AllClean V s.1 ∧ OptClean V s.2 :=
  .loop (I := fun s : List PE × Option PE => AllClean V s.1 ∧ OptClean V s.2) (fun _ hs a ha => .bind (.conj a.2 (hl _ (mem_zip ha).1) hb) fun _ ht =>
    .bind (.addTo hs.2 ht) fun _ hz => .pure ⟨hs.1.append ht, .some hz⟩) ⟨.nil, .none⟩

theorem uses_dualDecomposition (hb : b) (hV : ∀ n ∈ ["h", "alpha", "beta", "eta"], n ∈ V) : Uses V b (dualDecomposition k mu L Ind) fun _ => True := by
  simp only [List.mem_cons, List.not_mem_nil, or_false, forall_eq_or_imp, forall_eq] at hV
  unfold dualDecomposition
  refine .bind (.defineSum mu L _) ?_
  rintro ⟨fs, f⟩ -
  refine .bind (.stationary f) ?_
  rintro ⟨xs, yst, fst⟩ ⟨h1, h2, h3⟩
  dsimp only at h1
  refine .bind (.mapB (Q := fun e : PE => e.Clean V) fun f _ => .bind (.oracle f h1) fun t ht => .pure ht.1) fun ys hys => ?_
  refine .bind (.loop (I := fun s => (AllClean V s.1.1 ∧ OptClean V s.1.2) ∧ AllClean V s.2.1 ∧ OptClean V s.2.2) (fun s hs f _ => ?_)
    ⟨⟨.nil, .none⟩, .nil, .none⟩) ?_
  · exact .bind .initial fun yi hy => .bind (.subFrom hs.1.2 hy) fun _ hl => .bind (.conj f hy hb) fun _ hx => .bind (.addTo hs.2.2 hx) fun _ hz =>
      .pure ⟨⟨hs.1.1.append hy, .some hl⟩, hs.2.1.append hx, .some hz⟩
  rintro ⟨⟨iL, last⟩, xs1, z⟩ ⟨⟨hi, hl⟩, hx, hz⟩
  have hl := hl.getD
  have hi := hi.append hl
  dsimp only at h1 hi hl hx hz ⊢
  refine .bind (.conj _ hl hb) fun xl hxl => .bind (.addTo hz hxl) fun z' hz' => .bind (.pt hz') fun z1 hz1 =>
    .bind (.mapB (Q := fun e : PE => e.Clean V) fun a ha => .pt ?_) fun i15 hi15 => .bind (.conjs hb hi15 fs) ?_
  · have h4 := hi _ (mem_zip ha).1
    have h5 := hx.append hxl _ (mem_zip ha).2
    simp_all [PE.Clean, Sym.vars]
  rintro ⟨x15, z⟩ ⟨hx15, hz⟩
  have hz := hz.getD
  dsimp only at hx15 hz ⊢
  refine .bind (.pt hz) fun z15 hz15 => .bind (.mapB (Q := fun e : PE => e.Clean V) fun a ha => .pt ?_) fun i2 hi2 => ?_
  · have h4 := hi _ (mem_zip ha).1
    have h5 := hx.append hxl _ (mem_zip (mem_zip ha).2).1
    have h6 := hx15 _ (mem_zip (mem_zip ha).2).2
    simp_all [PE.Clean, Sym.vars]
  refine .bind (.loop (I := fun s => OptCleanE V s.1 ∧ OptCleanE V s.2.1 ∧ OptCleanE V s.2.2) (fun s hs a ha => ?_) ⟨.none, .none, .none⟩) ?_
  · have h4 := hi _ (mem_zip (mem_zip ha).1).1
    have h5 := hi2 _ (mem_zip (mem_zip ha).1).2
    have h6 := hx.append hxl _ (mem_zip (mem_zip ha).2).1
    have h7 := hys _ (mem_zip (mem_zip ha).2).2
    refine .bind (.addEx hs.1 ?_) fun _ h1 => .bind (.addEx hs.2.1 ?_) fun _ h2 => .bind (.addEx hs.2.2 ?_) fun _ h3 => .pure ⟨.some h1, .some h2, .some h3⟩
    all_goals simp_all [PE.Clean, EE.Clean, Sym.vars]
  rintro ⟨E1, E2, D⟩ ⟨hE1, hE2, hD⟩
  exact .bind (.finishMetric hE1.getD hE2.getD hD.getD) fun _ _ => .pure trivial

end uses
end Verif
