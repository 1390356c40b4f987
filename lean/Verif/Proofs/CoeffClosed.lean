import Verif.Proofs.Coeff

/-!
# The table of monomials is prefix-closed
-/

namespace Verif

variable {C : CAS} {params : List Name}

theorem TableClosed.init : TableClosed params (VTab.init params).names := by
  intro s hs
  left
  simpa [VTab.init] using hs

theorem TableClosed.addName {tab : VTab} (o : tab.Ok) (hc : TableClosed params tab.names) {l : List Name} {a : Name} (hl : l ≠ [])
    (hp : ∀ n ∈ params, Plain n) (hm : ∀ n ∈ l ++ [a], n ∈ params) (hs : (l ++ [a]).Pairwise (· ≤ ·)) (hin : VName.str (joinU l) ∈ tab.names) :
    TableClosed params (tab.addName (joinU (l ++ [a]))).names := by
  intro s hs'
  have hsub := (o.addName (joinU (l ++ [a]))).2.1.subset
  rcases tab.addName_names _ _ hs' with h | h
  · rcases hc s h with h | ⟨l', a', h1, h2, h3, h4, h5⟩
    · exact Or.inl h
    · exact Or.inr ⟨l', a', h1, h2, h3, h4, hsub h5⟩
  · injection h with h
    subst h
    right
    exact ⟨l, a, hl, splitU_join_plain (by simp) fun n hn => hp n (hm n hn), hm, hs, hsub hin⟩

theorem addPrefixes_closed (hp : ∀ n ∈ params, Plain n) : ∀ (rest l : List Name) (tab : VTab), l ≠ [] → tab.Ok → TableClosed params tab.names →
    (∀ n ∈ l ++ rest, n ∈ params) → (l ++ rest).Pairwise (· ≤ ·) → VName.str (joinU l) ∈ tab.names →
    TableClosed params (VTab.addPrefixes rest (joinU l) tab).2.names := by
  intro rest
  induction rest with
  | nil => intro l tab _ _ hc _ _ _; exact hc
  | cons el rest ih =>
    intro l tab hl o hc hm hs hin
    rw [VTab.addPrefixes, ← joinU_concat hl]
    have e : l ++ el :: rest = l ++ [el] ++ rest := by simp
    rw [e] at hm hs
    obtain ⟨o1, p1, m1⟩ := o.addName (joinU (l ++ [el]))
    exact ih (l ++ [el]) _ (by simp) o1 (hc.addName o hl hp (fun n hn => hm n (List.mem_append_left _ hn)) (List.pairwise_append.1 hs).1 hin)
      hm hs m1

theorem coeffTerm_closed {t : PolyTerm} {row : ℕ} {tab tab' : VTab} {m m' : Coeff} (f : Fits tab m)
    (hpre : (VName.one :: params.map VName.str) <+: tab.names) (hp : ∀ n ∈ params, Plain n) (ht : ∀ p ∈ t.1, p.1 ∈ params)
    (hc : TableClosed params tab.names) (h : coeffTerm row t tab m = .ok (tab', m')) : TableClosed params tab'.names := by
  have hmn : ∀ n ∈ monoNames t, n ∈ params := by
    intro n hn
    rw [monoNames, List.mem_flatMap] at hn
    obtain ⟨p, hp1, hn⟩ := hn
    rw [(List.mem_replicate.1 hn).2]; exact ht p hp1
  rw [coeffTerm] at h
  split at h
  · simp at h
  · obtain ⟨⟨j, tab1, m1⟩, h1, h⟩ := Except.bind_ok_iff.1 h
    obtain ⟨m2, h2, h⟩ := Except.bind_ok_iff.1 h
    have : tab1 = tab' := by
      split at h
      · injection h with h; simp only [Prod.mk.injEq] at h; exact h.1
      · simp at h
    subst this
    rw [findIdx] at h1
    split at h1
    · injection h1 with h1; simp only [Prod.mk.injEq] at h1; rw [← h1.2.1]; exact hc
    · split at h1
      · rename_i a b rest hs
        split at h1
        · split at h1
          · injection h1 with h1; simp only [Prod.mk.injEq] at h1; rw [← h1.2.1]
            have hmem : ∀ n ∈ a :: b :: rest, n ∈ params := by
              intro n hn
              rw [← hs, mem_sortNames] at hn
              by_cases hne : sortNames (monoNames t) = []
              · rw [hne] at hs
                simp [joinU, splitU, sortNames] at hs
              · rw [splitU_join_plain hne fun x hx => hp x (hmn x (mem_sortNames.1 hx)), mem_sortNames] at hn
                exact hmn n hn
            have := addPrefixes_closed hp (b :: rest) [a] tab (by simp) f.ok hc hmem (by rw [List.singleton_append, ← hs]; exact sortNames_pairwise _)
              (by rw [joinU_singleton]; exact hpre.subset (by simp [hmem a (by simp)]))
            rw [joinU_singleton] at this
            exact this
          · simp at h1
        · simp at h1
      · simp at h1

theorem coeffTerms_closed (hp : ∀ n ∈ params, Plain n) {row : ℕ} : ∀ (ts : List PolyTerm) {tab tab' : VTab} {m m' : Coeff},
    Fits tab m → (VName.one :: params.map VName.str) <+: tab.names → (∀ t ∈ ts, ∀ p ∈ t.1, p.1 ∈ params) → TableClosed params tab.names →
    coeffTerms row ts tab m = .ok (tab', m') → TableClosed params tab'.names := by
  intro ts
  induction ts with
  | nil =>
    intro tab tab' m m' _ _ _ hc h
    rw [coeffTerms] at h
    injection h with h; simp only [Prod.mk.injEq] at h; rw [← h.1]; exact hc
  | cons t ts ih =>
    intro tab tab' m m' f hpre ht hc h
    rw [coeffTerms] at h
    obtain ⟨⟨tab1, m1⟩, h1, h⟩ := Except.bind_ok_iff.1 h
    obtain ⟨-, f1, p1, -⟩ := coeffTerm_spec f h1
    exact ih f1 (hpre.trans p1) (fun u hu => ht u (by simp [hu])) (coeffTerm_closed f hpre hp (ht t (by simp)) hc h1) h

theorem coeffEntries_closed (hC : C.Lawful) (hp : ∀ n ∈ params, Plain n) : ∀ (es done : List Sym) {row : ℕ} {tab tab' : VTab} {m m' : Coeff},
    done.length = row → (VName.one :: params.map VName.str) <+: tab.names → MatInv C row done tab m →
    (∀ e ∈ es, ∀ n ∈ e.vars, n ∈ params) → TableClosed params tab.names → coeffEntries C es row tab m = .ok (tab', m') →
    TableClosed params tab'.names := by
  intro es
  induction es with
  | nil =>
    intro done row tab tab' m m' _ _ _ _ hc h
    rw [coeffEntries] at h
    injection h with h; simp only [Prod.mk.injEq] at h; rw [← h.1]; exact hc
  | cons e es ih =>
    intro done row tab tab' m m' hd hpre mi hv hc h
    rw [coeffEntries] at h
    obtain ⟨⟨tab1, m1⟩, h1, h⟩ := Except.bind_ok_iff.1 h
    obtain ⟨mi1, p1⟩ := coeffEntry_spec hC hd (one_of_prefix hpre) mi h1
    refine ih (done ++ [e]) (by simp [hd]) (hpre.trans p1) mi1 (fun e' he' => hv e' (by simp [he'])) ?_ h
    rw [coeffEntry] at h1
    split at h1
    · obtain ⟨m2, -, h1⟩ := Except.bind_ok_iff.1 h1
      injection h1 with h1; simp only [Prod.mk.injEq] at h1; rw [← h1.1]; exact hc
    · refine coeffTerms_closed hp _ mi.fits hpre ?_ hc h1
      intro t ht p hpt
      exact hv e (by simp) _ (hC.simp_vars _ _ (hC.poly_vars _ t ht p hpt))

theorem coeffLoop_closed (hC : C.Lawful) (hp : ∀ n ∈ params, Plain n) {dimG dimF : ℕ} : ∀ (ms : List FG) {tab tab' : VTab} {cs : List (Coeff × Coeff)},
    tab.Ok → (VName.one :: params.map VName.str) <+: tab.names → (∀ m ∈ ms, ∀ n, m.Occurs n → n ∈ params) → TableClosed params tab.names →
    coeffLoop C dimG dimF ms tab = .ok (tab', cs) → TableClosed params tab'.names := by
  intro ms
  induction ms with
  | nil =>
    intro tab tab' cs _ _ _ hc h
    rw [coeffLoop] at h
    injection h with h; simp only [Prod.mk.injEq] at h; rw [← h.1]; exact hc
  | cons m ms ih =>
    intro tab tab' cs o hpre hv hc h
    rw [coeffLoop] at h
    obtain ⟨⟨tab1, f⟩, h1, h⟩ := Except.bind_ok_iff.1 h
    obtain ⟨⟨tab2, g⟩, h2, h⟩ := Except.bind_ok_iff.1 h
    obtain ⟨⟨tab3, rs⟩, h3, h⟩ := Except.bind_ok_iff.1 h
    injection h with h
    simp only [Prod.mk.injEq] at h
    obtain ⟨rfl, rfl⟩ := h
    obtain ⟨o1, p1, r1⟩ := coeffMatrix_spec hC o (one_of_prefix hpre) h1
    obtain ⟨o2, p2, r2⟩ := coeffMatrix_spec hC o1 (one_of_prefix (hpre.trans p1)) h2
    have c1 := coeffEntries_closed hC hp (m.flatF dimF) [] rfl hpre (matInv_zero o) (by
      intro e he n hn
      obtain ⟨i, -, rfl⟩ := List.mem_map.1 he
      exact hv m (by simp) n (Or.inl ⟨i, hn⟩)) hc h1
    have c2 := coeffEntries_closed hC hp (m.flatG dimG) [] rfl (hpre.trans p1) (matInv_zero o1) (by
      intro e he n hn
      obtain ⟨i, -, rfl⟩ := List.mem_map.1 he
      exact hv m (by simp) n (Or.inr ⟨_, _, hn⟩)) c1 h2
    exact ih o2 ((hpre.trans p1).trans p2) (fun m' hm' => hv m' (by simp [hm'])) c2 h3

end Verif
