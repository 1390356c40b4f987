import Verif.Proofs.Total
import Verif.Props.Parsing

/-!
# Building the QCQP raises no error
-/

namespace Verif
open MvPolynomial (coeff coeff_X)

variable {C : CAS} {sm : SymMats} {dimG dimF : ℕ} {params : List Name} {bounds : List Bound}

theorem padTo_ok {m : Coeff} {rows n : ℕ} (h : m.cols ≤ n) : ∃ r, padTo m rows n = .ok r := ⟨_, by rw [padTo, if_pos h]⟩

theorem stackVectors_ok {vs : List Coeff} {n : ℕ} (hne : vs ≠ []) (h : ∀ c ∈ vs, c.cols ≤ n) : ∃ r, stackVectors vs n = .ok r :=
  ⟨_, by rw [stackVectors, if_neg hne, if_pos (List.all_eq_true.2 fun c hc => by simpa using h c hc)]⟩

theorem qStack_ok {cons : List Coeff} {obj : Coeff} {rows v n : ℕ} (h1 : obj.cols ≤ v) (hne : cons ≠ []) (h2 : ∀ c ∈ cons, c.cols ≤ v)
    (h3 : cons.length = n) : ∃ r, qStack cons obj rows v n = .ok r := by
  obtain ⟨o, ho⟩ := padTo_ok (rows := rows) h1
  obtain ⟨s, hs⟩ := stackVectors_ok hne h2
  exact ⟨_, by rw [qStack, ho]; simp only [bind, Except.bind]; rw [hs]; simp only; rw [if_pos h3]⟩

/-- the coefficient arrays are built whenever there is a constraint -/
theorem qData_ok (hC : C.Lawful) (hp : params.Nodup) (hpl : ∀ n ∈ params, Plain n) (hv : ∀ km ∈ sm.spExp, ∀ n, km.2.Occurs n → n ∈ params)
    {ents : List (SpKey × FG)} {obj : FG} (pr : sm.Prepared ents obj) (hne : sm.nI + sm.nE ≠ 0) : ∃ q, qData C sm dimG dimF params = .ok q := by
  obtain ⟨⟨tab, cs⟩, hr⟩ := C18_ok (dimG := dimG) (dimF := dimF) hC hp hpl hv
  obtain ⟨-, -, hrep⟩ := coeffLoop_spec (params := params) hC _ (VTab.init_ok hp) List.prefix_rfl hr
  have hlen : cs.length = sm.nI + sm.nE + 1 := by
    rw [← hrep.length_eq, pr.sp]; simp [pr.len]
  have hcols : ∀ c ∈ cs, c.1.cols ≤ tab.names.length ∧ c.2.cols ≤ tab.names.length := by
    intro c hc
    obtain ⟨k, hk, rfl⟩ := List.mem_iff_getElem.1 hc
    have := List.Forall₂.get hrep (by rw [hrep.length_eq]; exact hk) hk
    exact ⟨this.1.cols, this.2.cols⟩
  have hcs : cs ≠ [] := by intro h0; rw [h0] at hlen; simp at hlen
  obtain ⟨l, c, rfl⟩ : ∃ l c, cs = l ++ [c] := ⟨cs.dropLast, cs.getLast hcs, (List.dropLast_append_getLast hcs).symm⟩
  have hl : l.length = sm.nI + sm.nE := by simpa using hlen
  have hl0 : l ≠ [] := by intro h0; rw [h0] at hl; simp at hl; omega
  obtain ⟨f, hf⟩ := qStack_ok (cons := l.map Prod.fst) (obj := c.1) (rows := dimF) (hcols c (by simp)).1 (by simpa using hl0)
    (by intro x hx; obtain ⟨y, hy, rfl⟩ := List.mem_map.1 hx; exact (hcols y (by simp [hy])).1) (by simpa using hl)
  obtain ⟨g, hg⟩ := qStack_ok (cons := l.map Prod.snd) (obj := c.2) (rows := dimG * dimG) (hcols c (by simp)).2 (by simpa using hl0)
    (by intro x hx; obtain ⟨y, hy, rfl⟩ := List.mem_map.1 hx; exact (hcols y (by simp [hy])).2) (by simpa using hl)
  refine ⟨⟨tab, ⟨tab.names.length, sm.nI, sm.nE, dimG⟩, f.1, f.2, g.1, g.2⟩, ?_⟩
  rw [qData, hr]
  simp only [bind, Except.bind]
  rw [if_pos (by rw [pr.sp, Dict.keys_append]; simp [Dict.keys])]
  simp only [List.getLast?_concat, List.dropLast_concat]
  rw [hf]
  simp only
  rw [hg]

theorem qData_nonempty {q : QData} (h : qData C sm dimG dimF params = .ok q) : sm.nI + sm.nE ≠ 0 := by
  obtain ⟨cs, co, f⟩ := qData_inv h
  intro h0
  have h1 := f.sumF
  rw [stackVectors, if_pos (by rw [List.map_eq_nil_iff, ← List.length_eq_zero_iff, f.len, h0])] at h1
  cases h1

theorem lowerCons_total {tab : VTab} : ∀ (ns : List Name), (∀ n ∈ ns, ∃ i, tab.lookup n = .ok i) → ∃ cs, lowerCons tab ns = .ok cs
  | [], _ => ⟨_, rfl⟩
  | n :: ns, h => by
    obtain ⟨i, hi⟩ := h n (by simp)
    obtain ⟨cs, hcs⟩ := lowerCons_total ns fun m hm => h m (by simp [hm])
    exact ⟨_, by rw [lowerCons, hi]; simp only [bind, Except.bind]; rw [hcs]⟩

theorem invCons_total {tab : VTab} {mk : ℕ → ℕ → Constr} : ∀ (ns : List Name),
    (∀ n ∈ ns, (∃ i, tab.lookup n = .ok i) ∧ ∃ i, tab.lookup ("inv" ++ n) = .ok i) → ∃ cs, invCons tab mk ns = .ok cs
  | [], _ => ⟨_, rfl⟩
  | n :: ns, h => by
    obtain ⟨⟨i, hi⟩, j, hj⟩ := h n (by simp)
    obtain ⟨cs, hcs⟩ := invCons_total (mk := mk) ns fun m hm => h m (by simp [hm])
    exact ⟨_, by rw [invCons, hi]; simp only [bind, Except.bind]; rw [hj]; simp only; rw [hcs]⟩

theorem productCons_total {tab : VTab} {mk : ℕ → ℕ → ℕ → Constr} : ∀ (ns : List VName), (∀ n ∈ ns, ∃ p, productIdx tab n = .ok p) →
    ∃ cs, productCons tab mk ns = .ok cs
  | [], _ => ⟨_, rfl⟩
  | n :: ns, h => by
    obtain ⟨p, hp⟩ := h n (by simp)
    obtain ⟨cs, hcs⟩ := productCons_total (mk := mk) ns fun m hm => h m (by simp [hm])
    rw [productCons, hp]
    simp only [bind, Except.bind]
    rw [hcs]
    cases p <;> exact ⟨_, rfl⟩

theorem addBounds_ok {look : Name → Option (List CExp)} : ∀ (bs : List Bound) (this : Option (List CExp)), (∀ b ∈ bs, ∃ x, look b.name = some x) →
    ∃ cs, addBounds look bs this = .ok cs
  | [], _, _ => ⟨_, rfl⟩
  | b :: bs, this, h => by
    obtain ⟨x, hx⟩ := h b (by simp)
    obtain ⟨cs, hcs⟩ := addBounds_ok bs (some x) fun c hc => h c (by simp [hc])
    rw [addBounds, hx]
    simp only
    split
    · exact ⟨cs, hcs⟩
    · exact ⟨_, by simp only [bind, Except.bind]; rw [hcs]⟩

/-- an expression equal to one symbol of the table is converted -/
theorem tabExpr_var (hC : C.Lawful) {tab : VTab} {n : Name} (hn : Plain n) (hi : ∃ i, tab.lookup n = .ok i) : ∃ x, tab.expr C (.var n) = .ok x := by
  rw [VTab.expr]
  split
  · exact ⟨_, rfl⟩
  · refine tabTerms_ok _ fun t ht => ?_
    by_cases h0 : monoNames t = []
    · refine ⟨.num 1, ?_⟩
      rw [VTab.monomial, if_pos]
      rw [monoParts, List.flatMap_eq_nil_iff]
      rw [monoNames, List.flatMap_eq_nil_iff] at h0
      intro p hp
      have := h0 p hp
      rw [List.replicate_eq_nil_iff] at this
      rw [this]; rfl
    · have h1 := coeff_of_monoNames hC ht h0
      have h2 : t.expo = Finsupp.single n 1 := by
        change coeff t.expo (MvPolynomial.X n) ≠ 0 at h1
        rw [coeff_X] at h1
        by_contra hh
        exact h1 (if_neg fun h' => hh h'.symm)
      have h3 := (monoParts_of_expo hC ht).2 n h2
      rw [splitU_plain hn] at h3
      obtain ⟨i, hi⟩ := hi
      refine ⟨xv i, ?_⟩
      rw [VTab.monomial, if_neg (by rw [h3]; simp), h3]
      have : joinU (sortNames [n]) = n := by
        rw [show sortNames [n] = [n] from rfl, joinU_singleton]
      rw [this, hi]
      rfl

/-- every name of the table but the first is a parameter or a product whose parts are in the table -/
theorem productIdx_total {tab : VTab} (o : tab.Ok) (hpl : ∀ n ∈ params, Plain n) (pre : (VName.one :: params.map VName.str) <+: tab.names)
    (hcl : TableClosed params tab.names) : ∀ n ∈ tab.names.drop 1, ∃ p, productIdx tab n = .ok p := by
  have hlook : ∀ s : Name, VName.str s ∈ tab.names → ∃ i, tab.lookup s = .ok i := by
    intro s hs
    obtain ⟨i, hi⟩ := List.getElem?_of_mem hs
    exact ⟨i, o.lookup.2 hi⟩
  intro n hn
  have hmem := List.mem_of_mem_drop hn
  cases n with
  | one =>
    exfalso
    obtain ⟨x, hx⟩ := pre
    have hnd := o.nodup
    rw [← hx] at hnd hn
    simp only [List.cons_append, List.drop_succ_cons, List.drop_zero] at hn
    exact (List.nodup_cons.1 hnd).1 hn
  | str s =>
    rw [productIdx]
    split
    · exact ⟨_, rfl⟩
    · rename_i hlen
      rcases hcl s hmem with hs | ⟨l, a, hl, e, hm, -, hin⟩
      · exact absurd (by rw [splitU_plain (hpl s hs)]; rfl) hlen
      · obtain ⟨i, hi⟩ := hlook s hmem
        obtain ⟨j, hj⟩ := hlook a (pre.subset (by simp [hm a (by simp)]))
        obtain ⟨k, hk⟩ := hlook _ hin
        rw [hi]
        simp only [bind, Except.bind]
        rw [e]
        simp only [List.getLastD_concat, List.dropLast_concat]
        rw [hj]
        simp only
        rw [hk]
        exact ⟨_, rfl⟩

/-- the QCQP is built whenever there is a constraint and the objective is a parameter -/
theorem qcqpNlp_total (hC : C.Lawful) (hp : params.Nodup) (hpl : ∀ n ∈ params, Plain n) (hv : ∀ km ∈ sm.spExp, ∀ n, km.2.Occurs n → n ∈ params)
    {ents : List (SpKey × FG)} {obj : FG} (pr : sm.Prepared ents obj) (hne : sm.nI + sm.nE ≠ 0) (hb : ∀ b ∈ bounds, b.name ∈ params)
    (hin : ∀ v ∈ invParams params, v ∈ params ∧ "inv" ++ v ∈ params) (hlo : ∀ n ∈ ["eta", "h", "rho", "gamma"], n ∈ params) {g : Name} (hg : g ∈ params)
    (extra : ℕ) : ∃ q, qcqpNlp C sm dimG dimF params bounds extra (.var g) = .ok q := by
  obtain ⟨q, hq⟩ := qData_ok (dimG := dimG) (dimF := dimF) hC hp hpl hv pr hne
  obtain ⟨o, pre, -⟩ := qData_table hC hp hq
  obtain ⟨cs, co, fr⟩ := qData_inv hq
  have hcl : TableClosed params q.tab.names := by
    refine coeffLoop_closed hC hpl _ (VTab.init_ok hp) List.prefix_rfl (fun m hm n hn => ?_) TableClosed.init fr.coeff
    obtain ⟨km, hk, rfl⟩ := List.mem_map.1 hm
    exact hv km hk n hn
  have hlook : ∀ s ∈ params, ∃ i, q.tab.lookup s = .ok i := by
    intro s hs
    obtain ⟨i, hi⟩ := List.getElem?_of_mem (pre.subset (show VName.str s ∈ VName.one :: params.map VName.str by simp [hs]))
    exact ⟨i, o.lookup.2 hi⟩
  obtain ⟨bs, hbs⟩ := addBounds_ok (look := qLook q.tab q.s.x) bounds none (by
    intro b hbb
    rw [qLook]
    split
    · exact ⟨_, rfl⟩
    · obtain ⟨i, hi⟩ := hlook _ (hb b hbb)
      rw [lookup_ok.1 hi]
      exact ⟨_, rfl⟩)
  obtain ⟨low, hlow⟩ := lowerCons_total _ fun n hn => hlook n (hlo n hn)
  obtain ⟨pc, hpc⟩ := productCons_total (mk := q.productCon) _ (productIdx_total o hpl pre hcl)
  obtain ⟨ic, hic⟩ := invCons_total (mk := q.invCon) (invParams params) fun n hn => ⟨hlook _ (hin n hn).1, hlook _ (hin n hn).2⟩
  obtain ⟨e, he⟩ := tabExpr_var hC (hpl g hg) (hlook g hg)
  rw [qcqpNlp, hq]
  simp only [bind, Except.bind]
  rw [hbs]; simp only
  rw [hlow]; simp only
  rw [hpc]; simp only
  rw [hic]; simp only
  rw [he]
  exact ⟨_, rfl⟩

end Verif
