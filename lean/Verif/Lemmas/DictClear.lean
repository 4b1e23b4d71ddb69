import Verif.Lemmas.DictReg
/-
Clearing a document.
-/
namespace BX
open XBT Spec

theorem clearMove_spec {P Q : Pool} {dst src size other osize : Nat} {bs : List UInt8} (h : P.clearMove dst src size other osize = .ok (Q, true)) (hs : Has P.mem src bs) (hl : bs.length = size)
    (hb : src = dst → dst + size ≤ P.fileSize) :
    Q = { P with mem := Q.mem } ∧ Has Q.mem dst bs ∧ dst + size ≤ P.fileSize ∧ (∀ i, i < dst ∨ dst + size ≤ i → Q.mem i = P.mem i) ∧ (Q.mem = P.mem ∨ dst ≥ other + osize ∨ dst + size ≤ other) := by
  unfold Pool.clearMove at h
  by_cases hc : src = dst
  · rw [if_pos hc] at h
    simp only [Out.pure_eq, Out.ok.injEq, Prod.mk.injEq, and_true] at h
    subst h
    exact ⟨rfl, hc ▸ hs, hb hc, fun _ _ => rfl, Or.inl rfl⟩
  · rw [if_neg hc] at h
    by_cases ho : dst ≥ other + osize ∨ dst + size ≤ other
    · rw [if_pos ho] at h
      obtain ⟨R, h1, h2⟩ := Out.bind_eq_ok h
      simp only [Out.pure_eq, Out.ok.injEq, Prod.mk.injEq, and_true] at h2
      subst h2
      obtain ⟨rfl, h3⟩ := copy_spec h1 hs hl
      exact ⟨rfl, Has.self _ _ _, h3, fun i hi => memPut_frame _ _ _ _ (by omega), Or.inr ho⟩
    · rw [if_neg ho] at h
      simp at h

/-- what is left of a table after the document has been cleared: its symbols, at a new place -/
theorem TabOk.moved {P Q : Pool} {T : Tab16} {l : List Sym} (h : TabOk P T l) {n : Nat} (h1 : poolHeader ≤ n) (h2 : n % 4 = 0) (h3 : n + symsLen l ≤ Q.alloc) (h4 : Has Q.mem n (encSyms 0 l)) :
    TabOk Q { T with names := n, index := 0 } l := by
  have hpos : 0 < poolHeader := by decide
  exact ⟨h.max, h.few, h.good, h.nodup, h.slow, fun _ => by simp only; omega, fun _ => ⟨h1, h2, h3, h4⟩, fun hi => absurd rfl hi⟩

theorem makeTable_false {P Q : Pool} {b : Bool} (h : (do let r ← P.makeTable b; if r.2 = false then pure r else r.1.makeTable false : Out (Pool × Bool)) = .ok (Q, true)) :
    ∃ R, P.makeTable b = .ok (R, true) ∧ R.makeTable false = .ok (Q, true) := by
  obtain ⟨⟨R, r⟩, h1, h2⟩ := Out.bind_eq_ok h
  cases r with
  | false =>
    rw [if_pos rfl] at h2
    simp at h2
  | true => exact ⟨R, h1, by rw [if_neg (by simp)] at h2; exact h2⟩

theorem clear_spec {P Q : Pool} (hP : PoolOk P) (hsm : P.mmapSize < 2147483648) {lt lp : List Sym} (ht : TabOk P P.tags lt) (hp : TabOk P P.params lp) (h : P.clear = .ok (Q, true)) :
    PoolOk Q ∧ Q.fileSize = P.fileSize ∧ Q.mmapSize = P.mmapSize ∧ Q.root = 0 ∧ TabOk Q Q.tags lt ∧ TabOk Q Q.params lp ∧
    (lt ≠ [] → Q.tags.index ≠ 0) ∧ (lp ≠ [] → Q.params.index ≠ 0) ∧ Q.tags.names = poolHeader ∧ Q.params.names = poolHeader + symsLen lt ∧
    (Q.tags.index = 0 ∨ poolHeader + symsLen lt + symsLen lp ≤ Q.tags.index) ∧
    (Q.params.index = 0 ∨ (poolHeader + symsLen lt + symsLen lp ≤ Q.params.index ∧ (Q.tags.index = 0 ∨ Q.tags.index + 4 * lt.length ≤ Q.params.index))) ∧
    Q.alloc = poolHeader + symsLen lt + symsLen lp + 4 * lt.length + 4 * lp.length := by
  unfold Pool.clear at h
  have hP0 : PoolOk { P with root := 0 } := by obtain ⟨a, b, c, d, e, f⟩ := hP; exact ⟨a, b, c, d, e, f⟩
  have ht0 : TabOk { P with root := 0 } P.tags lt := ht.frame (Nat.le_refl _) fun _ _ => rfl
  have hp0 : TabOk { P with root := 0 } P.params lp := hp.frame (Nat.le_refl _) fun _ _ => rfl
  simp only at h
  rw [namesSize_ok hP0 ht0, Out.ok_bind] at h
  simp only at h
  rw [namesSize_ok (P := { P with root := 0 }) hP0 hp0, Out.ok_bind] at h
  simp only at h
  generalize hS : ({ P with root := 0 } : Pool) = S at h hP0 ht0 hp0
  have hSt : S.tags = P.tags := by rw [← hS]
  have hSp : S.params = P.params := by rw [← hS]
  have hSr : S.root = 0 := by rw [← hS]
  have hSf : S.fileSize = P.fileSize ∧ S.mmapSize = P.mmapSize := by rw [← hS]; exact ⟨rfl, rfl⟩
  have e0 : ({ S with params := P.params } : Pool) = S := by rw [← hSp]
  have e1 : ({ S with root := 0, tags := P.tags, params := P.params } : Pool) = S := by rw [← hS]
  obtain ⟨⟨U, ps⟩, h1, h⟩ := Out.bind_eq_ok h
  have hm1 := symsLen_mod lt
  have hm2 := symsLen_mod lp
  -- the attribute names are somewhere
  have hsave : ps = none ∨ ∃ o, ps = some o ∧ TabStep S U true ∧ U.tab true = S.tab true ∧ U.tab false = S.tab false ∧ Has U.mem o (encSyms 0 lp) ∧ o + symsLen lp ≤ U.alloc := by
    unfold Pool.clearSave at h1
    rw [hSp] at h1
    split at h1
    · obtain ⟨⟨U1, r1⟩, h2, h1⟩ := Out.bind_eq_ok h1
      obtain ⟨s1, s2, s3, s4⟩ := allocate_step (b := true) hP0 h2
      cases r1 with
      | none =>
        simp only [Out.pure_eq, Out.ok.injEq, Prod.mk.injEq] at h1
        exact Or.inl h1.2.symm
      | some o =>
        simp only at h1
        obtain ⟨U2, h3, h1⟩ := Out.bind_eq_ok h1
        simp only [Out.pure_eq, Out.ok.injEq, Prod.mk.injEq] at h1
        obtain ⟨rfl, rfl⟩ := h1
        obtain ⟨o1, o2, o3, o4⟩ := s4 o rfl
        have hl := encSyms_length lp 0
        have hsrc : Has U1.mem P.params.names (encSyms 0 lp) := (hp0.frame (Q := U1) s1.mono fun i hi => s1.keep i (hp0.lt hi).2).has
        obtain ⟨rfl, hb⟩ := copy_spec h3 hsrc hl
        rw [Int.toNat_natCast, aa_of_mod hm2.1] at o3
        refine Or.inr ⟨o, rfl, ⟨s1.ok.mem _, s1.mono, s1.file, s1.map, s1.root, s1.other, fun i hi => (memPut_frame _ _ _ _ (Or.inl (by omega))).trans (s1.keep i hi)⟩, s2, s1.other false (by simp), Has.self _ _ _, by show _ ≤ U1.alloc; omega⟩
    · simp only [Out.pure_eq, Out.ok.injEq, Prod.mk.injEq] at h1
      obtain ⟨rfl, rfl⟩ := h1
      refine Or.inr ⟨P.params.names, rfl, TabStep.refl hP0 true, rfl, rfl, hp0.has, ?_⟩
      by_cases hn : P.params.names = 0
      · rw [hn, hp0.nil hn, symsLen]; omega
      · exact (hp0.names hn).2.2.1
  rcases hsave with rfl | ⟨o, rfl, u1, u2, u3, u4, u5⟩
  · simp at h
  simp only at h
  obtain ⟨⟨V, r2⟩, h2, h⟩ := Out.bind_eq_ok h
  cases r2 with
  | false => rw [if_pos rfl] at h; simp at h
  | true =>
  rw [if_neg (by simp)] at h
  have htU : TabOk U P.tags lt := ht0.frame u1.mono fun i hi => u1.keep i (ht0.lt hi).2
  have hUsz := u1.ok.size
  have hnt : P.tags.names + symsLen lt ≤ U.alloc := by
    by_cases hn : P.tags.names = 0
    · rw [hn, htU.nil hn, symsLen]; omega
    · exact (htU.names hn).2.2.1
  obtain ⟨v1, v2, v3, v4, v5⟩ := clearMove_spec h2 htU.has (encSyms_length lt 0) (by omega)
  have hVf : V.fileSize = U.fileSize := by rw [v1]
  have hpV : Has V.mem o (encSyms 0 lp) := by
    refine u4.congr fun i i1 i2 => ?_
    rw [encSyms_length] at i2
    rcases v5 with v5 | v5 | v5
    · rw [v5]
    · exact v4 i (by omega)
    · exact v4 i (by omega)
  obtain ⟨⟨W, r3⟩, h3, h⟩ := Out.bind_eq_ok h
  cases r3 with
  | false => rw [if_pos rfl] at h; simp at h
  | true =>
  rw [if_neg (by simp)] at h
  obtain ⟨w1, w2, w3, w4, w5⟩ := clearMove_spec (P := V) h3 hpV (encSyms_length lp 0) (by omega)
  have htW : Has W.mem poolHeader (encSyms 0 lt) := v2.congr fun i i1 i2 => w4 i (Or.inl (by rw [encSyms_length] at i2; omega))
  have hWt : W.tags = P.tags := by rw [w1, v1]; show U.tags = _; rw [← hSt]; exact u2
  have hWp : W.params = P.params := by rw [w1, v1]; show U.params = _; rw [← hSp]; exact u3
  have hWf : W.fileSize = U.fileSize := by rw [w1, v1]
  have hWm : W.mmapSize = U.mmapSize := by rw [w1, v1]
  have hWl : W.limit = U.limit := by rw [w1, v1]
  have hWr : W.root = U.root := by rw [w1, v1]
  unfold Pool.clearEnd at h
  simp only at h
  obtain ⟨X, h4, h⟩ := Out.bind_eq_ok h
  obtain ⟨R, h5, h6⟩ := makeTable_false h
  obtain ⟨a, ha, hx, rfl⟩ := Pool.wr_ok h4
  have haa : a = poolHeader + symsLen lt + symsLen lp := by omega
  have hph : poolHeader % 4 = 0 := by decide
  have hUok := u1.ok
  have hXok : PoolOk ({ W with alloc := poolHeader + symsLen lt + symsLen lp, tags := { W.tags with names := poolHeader, index := 0 }, params := { W.params with names := poolHeader + symsLen lt, index := 0 }, mem := memPut W.mem a (List.replicate (W.alloc - (poolHeader + symsLen lt + symsLen lp)) 0) } : Pool) := by
    have := hUok.lim
    refine ⟨by simp only; omega, by simp only; omega, ?_, ?_, ?_, ?_⟩
    · simp only; omega
    · simp only; rw [hWl, hWf]; exact hUok.lim
    · simp only; rw [hWm, hWf]; exact hUok.map
    · simp only; rw [hWf]; exact hUok.page
  have hzero : ∀ i, i < poolHeader + symsLen lt + symsLen lp → memPut W.mem a (List.replicate (W.alloc - (poolHeader + symsLen lt + symsLen lp)) 0) i = W.mem i := fun i hi =>
    memPut_frame _ _ _ _ (Or.inl (by omega))
  have hXf : W.fileSize = P.fileSize ∧ W.mmapSize = P.mmapSize ∧ W.root = 0 := ⟨by rw [hWf, u1.file]; exact hSf.1, by rw [hWm, u1.map]; exact hSf.2, by rw [hWr, u1.root]; exact hSr⟩
  generalize hX : ({ W with alloc := poolHeader + symsLen lt + symsLen lp, tags := { W.tags with names := poolHeader, index := 0 }, params := { W.params with names := poolHeader + symsLen lt, index := 0 }, mem := memPut W.mem a (List.replicate (W.alloc - (poolHeader + symsLen lt + symsLen lp)) 0) } : Pool) = X at *
  have hXt : TabOk X (X.tab true) lt := by
    have : X.tab true = { P.tags with names := poolHeader, index := 0 } := by rw [← hX]; show { W.tags with names := poolHeader, index := 0 } = _; rw [hWt]
    rw [this]
    refine ht.moved (Nat.le_refl _) hph (by rw [← hX]; simp only; omega) (htW.congr fun i i1 i2 => ?_)
    rw [encSyms_length] at i2
    rw [← hX]; exact hzero i (by omega)
  have hXp : TabOk X (X.tab false) lp := by
    have : X.tab false = { P.params with names := poolHeader + symsLen lt, index := 0 } := by rw [← hX]; show { W.params with names := poolHeader + symsLen lt, index := 0 } = _; rw [hWp]
    rw [this]
    refine hp.moved (by omega) (by omega) (by rw [← hX]; simp only; omega) (w2.congr fun i i1 i2 => ?_)
    rw [encSyms_length] at i2
    rw [← hX]; exact hzero i (by omega)
  have hXa : X.alloc = poolHeader + symsLen lt + symsLen lp := by rw [← hX]
  have hXn : (X.tab true).names = poolHeader ∧ (X.tab false).names = poolHeader + symsLen lt := by rw [← hX]; exact ⟨rfl, rfl⟩
  have hXg : X.fileSize = P.fileSize ∧ X.mmapSize = P.mmapSize ∧ X.root = 0 := by rw [← hX]; exact hXf
  obtain ⟨m1, m2, m3, m4, m5, m6⟩ := makeTable_spec hXok (by rw [hXg.2.1]; exact hsm) hXt h5
  have hpR : TabOk R (R.tab false) lp := by
    rw [m1.other false (by simp)]
    exact hXp.frame m1.mono fun i hi => m1.keep i (hXp.lt hi).2
  obtain ⟨n1, n2, n3, n4, n5, n6⟩ := makeTable_spec m1.ok (by rw [m1.map, hXg.2.1]; exact hsm) hpR h6
  have htQ : Q.tab true = R.tab true := n1.other true (by simp)
  have htQ' : TabOk Q (Q.tab true) lt := by
    rw [htQ]
    exact m2.frame n1.mono fun i hi => n1.keep i (m2.lt hi).2
  refine ⟨n1.ok, by rw [n1.file, m1.file]; exact hXg.1, by rw [n1.map, m1.map]; exact hXg.2.1, by rw [n1.root, m1.root]; exact hXg.2.2, htQ', n2, ?_, ?_, ?_, ?_, ?_, ?_, by rw [n6 rfl, m6 rfl]; omega⟩
  · intro hl
    show (Q.tab true).index ≠ 0
    rw [htQ]; exact m5 rfl hl
  · exact fun hl => n5 rfl hl
  · show (Q.tab true).names = _
    rw [htQ, m3]; exact hXn.1
  · show (Q.tab false).names = _
    rw [n3, m1.other false (by simp)]; exact hXn.2
  · show (Q.tab true).index = 0 ∨ _ ≤ (Q.tab true).index
    rw [htQ]
    rcases m4 with m4 | m4
    · exact Or.inl m4
    · exact Or.inr (by omega)
  · show (Q.tab false).index = 0 ∨ (_ ≤ (Q.tab false).index ∧ ((Q.tab true).index = 0 ∨ (Q.tab true).index + _ ≤ (Q.tab false).index))
    rw [htQ]
    have := m1.mono
    rcases n4 with n4 | n4
    · exact Or.inl n4
    · refine Or.inr ⟨by omega, ?_⟩
      by_cases hi : (R.tab true).index = 0
      · exact Or.inl hi
      · have := (m2.index hi).2.2.1
        exact Or.inr (by omega)

end BX
