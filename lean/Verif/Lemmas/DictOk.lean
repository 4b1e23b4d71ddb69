import Verif.Lemmas.Session
/-
Registering a symbol succeeds when there is room.
-/
namespace BX
open XBT Spec

theorem allocRoom_eq {P : Pool} (hP : PoolOk P) (hsm : P.mmapSize < 2147483648) {size : Nat} (h0 : 0 < size) (hr : P.alloc + aa size ≤ P.limit) (A : Int) (hA : A = size) :
    P.allocate A = .ok ({ P with mem := memPut P.mem P.alloc (List.replicate (aa size) 0), alloc := P.alloc + aa size }, some P.alloc) := by
  have h1 := hP.lim
  have h2 := hP.map
  have h3 := aa_ge size
  have h4 := aa_mod size
  have h5 := aa_lt size
  subst hA
  unfold Pool.allocate
  rw [if_neg (by omega), if_neg (by unfold INT_MAX; omega)]
  simp only [Int.toNat_natCast]
  rw [if_neg (by unfold INT_MAX; omega), if_neg (by omega), put_eq (by rw [List.length_replicate]; omega)]
  rfl

theorem rd_eq {f : Img} {a n : Nat} {bs : List UInt8} (h : Has f.mem a bs) (hl : bs.length = n) (hb : a + n ≤ f.size) : f.rd a n = .ok bs := by
  unfold Img.rd
  rw [if_pos (by omega), Int.toNat_natCast]
  have : slice f.mem a bs.length = bs := h
  rw [hl] at this
  rw [this]

theorem open_ok {P : Pool} (hP : PoolOk P) (hsm : P.mmapSize < 2147483648) {b : Bool} {l : List Sym} (h : TabOk P (P.tab b) l) (hn : (P.tab b).names ≠ 0) (hroom : P.alloc + symsLen l ≤ P.limit)
    (hl : l ≠ [] ∨ ((P.tab b).index = 0 ∧ (P.tab b).names = P.alloc)) : ∃ Q, P.open' b = .ok (Q, true) ∧ Q.limit = P.limit ∧ Q.alloc ≤ P.alloc + symsLen l ∧ ((P.tab b).index = 0 ∧ (P.tab b).names + symsLen l = P.alloc → Q.alloc = P.alloc) := by
  unfold Pool.open'
  rw [namesSize_ok hP h, Out.ok_bind]
  simp only [setTab_self]
  by_cases hc : (P.tab b).index = 0 ∧ (P.tab b).names + symsLen l = P.alloc
  · rw [if_pos hc]
    exact ⟨P, rfl, rfl, by omega, fun _ => rfl⟩
  · rw [if_neg hc]
    have hl' : l ≠ [] := by
      rcases hl with hl | hl
      · exact hl
      · rintro rfl; exact hc ⟨hl.1, by rw [symsLen]; omega⟩
    have hm := symsLen_mod l
    have hpos := List.length_pos_iff.2 hl'
    have haa : aa (symsLen l) = symsLen l := aa_of_mod hm.1
    obtain ⟨n1, n2, n3, n4⟩ := h.names hn
    have hsz := hP.size
    have hlim := hP.lim
    rw [allocRoom_eq hP hsm (size := symsLen l) (by omega) (by omega) _ rfl, Out.ok_bind]
    simp only
    unfold Pool.copy
    have hsrc : Has (memPut P.mem P.alloc (List.replicate (aa (symsLen l)) 0)) (P.tab b).names (encSyms 0 l) := n4.frame (Or.inl (by rw [encSyms_length]; omega))
    rw [rd_eq (f := Pool.img { P with mem := memPut P.mem P.alloc (List.replicate (aa (symsLen l)) 0), alloc := P.alloc + aa (symsLen l) }) hsrc (encSyms_length l 0) (by show _ ≤ P.fileSize; omega), Out.ok_bind,
      Pool.wr_eq (a := P.alloc) (by rw [encSyms_length]; show _ ≤ P.fileSize; omega) _ rfl, Out.ok_bind]
    refine ⟨_, rfl, ?_, ?_, fun h' => absurd h' hc⟩
    · simp
    · simp only [setTab_alloc]; omega

theorem addSymbol_ok {P : Pool} (hP : PoolOk P) (hsm : P.mmapSize < 2147483648) {b : Bool} {l : List Sym} (h : TabOk P (P.tab b) l) (hn : (P.tab b).names ≠ 0) {name : BStr} {t : XBT}
    (hroom : P.alloc + symsLen l + aa (name.length + 4) ≤ P.limit) (hl : l ≠ [] ∨ ((P.tab b).index = 0 ∧ (P.tab b).names = P.alloc)) :
    ∃ Q, P.addSymbol b name t = .ok (Q, l.length) ∧ Q.limit = P.limit ∧ Q.alloc ≤ P.alloc + symsLen l + aa (name.length + 4) ∧ (Q.tab b).index = 0 ∧
      ((P.tab b).index = 0 ∧ (P.tab b).names + symsLen l = P.alloc → Q.alloc = P.alloc + aa (name.length + 4)) := by
  obtain ⟨Q, h1, h2, h3, h3'⟩ := open_ok hP hsm h hn (by omega) hl
  obtain ⟨s1, s2, s3⟩ := open_spec hP h hn h1
  obtain ⟨t1, t2, t3, t4, t5⟩ := s3 rfl
  have hsz := s1.ok.size
  have hlim := s1.ok.lim
  have hge := aa_ge (name.length + 4)
  have hmax : (Q.tab b).maxId + 1 = l.length := by rw [t1.max]; omega
  unfold Pool.addSymbol
  rw [h1, Out.ok_bind, if_neg (by simp), allocRoom_eq s1.ok (by rw [s1.map]; exact hsm) (size := name.length + 4) (by omega) (by omega) _ (by omega), Out.ok_bind]
  simp only
  have htab : Pool.tab { Q with mem := memPut Q.mem Q.alloc (List.replicate (aa (name.length + 4)) 0), alloc := Q.alloc + aa (name.length + 4) } b = Q.tab b := by cases b <;> rfl
  rw [htab, hmax, Pool.wr_eq (a := Q.alloc) (by rw [symRecord_length, setTab_fileSize]; show _ ≤ Q.fileSize; omega) _ rfl, Out.ok_bind]
  refine ⟨_, rfl, ?_, ?_, ?_, fun h' => ?_⟩
  · simp only [setTab_limit]; exact h2
  · simp only [setTab_alloc]; omega
  · show (Pool.tab (Pool.setTab _ b { Q.tab b with maxId := _ }) b).index = 0
    rw [setTab_tab]; exact t2
  · simp only [setTab_alloc]; rw [h3' h']

/-- a table to which a symbol can be added: it has symbols, or nothing has been tried with it before -/
def Fresh (T : Tab16) (l : List Sym) : Prop := l ≠ [] ∨ (T.names = 0 ∧ T.index = 0)

theorem register_new_ok {P : Pool} (hP : PoolOk P) (hsm : P.mmapSize < 2147483648) {b : Bool} {l : List Sym} (h : TabOk P (P.tab b) l) {name : BStr} {t : XBT} (hg : GoodName name)
    (hnew : ∀ s ∈ l, s.name ≠ name) (hroom : P.alloc + symsLen l + aa (name.length + 4) ≤ P.limit) (hl : Fresh (P.tab b) l) (hp : b = false → t ≠ LAST ∧ P.tags.names ≠ 0) :
    ∃ Q, P.register b name t = .ok (Q, l.length) ∧ Q.limit = P.limit ∧ Q.alloc ≤ P.alloc + symsLen l + aa (name.length + 4) ∧ (Q.tab b).index = 0 ∧
      ((P.tab b).index = 0 ∧ ((P.tab b).names = 0 ∨ (P.tab b).names + symsLen l = P.alloc) → Q.alloc = P.alloc + aa (name.length + 4)) := by
  obtain ⟨s1, s2, s3, s4, s5, s6, s7⟩ := startNames_spec hP h
  have hlim : (P.startNames b).limit = P.limit := by unfold Pool.startNames; split <;> simp
  have htags : b = false → (P.startNames b).tags = P.tags := fun hb => by
    have := s1.other true (by rw [hb]; simp); exact this
  have hl' : l ≠ [] ∨ (((P.startNames b).tab b).index = 0 ∧ ((P.startNames b).tab b).names = (P.startNames b).alloc) := by
    rcases hl with hl | ⟨h1, h2⟩
    · exact Or.inl hl
    · right
      refine ⟨by omega, ?_⟩
      rcases s7 with s7 | s7
      · exact absurd (s7.trans h1) s3
      · omega
  obtain ⟨Q, q1, q2, q3, q4, q5⟩ := addSymbol_ok (t := t) (name := name) s1.ok (by rw [s1.map]; exact hsm) s2 s3 (by omega) hl'
  have hfind : findRec name ((P.startNames b).tab b).names 0 l = none := by
    cases hf : findRec name ((P.startNames b).tab b).names 0 l with
    | none => rfl
    | some x =>
      obtain ⟨l1, s, l2, rfl, f2, -⟩ := findRec_some l hf
      exact absurd f2 (hnew s (by simp))
  refine ⟨Q, ?_, by omega, by omega, q4, fun h' => ?_⟩
  rotate_left
  · rw [q5 ⟨by rw [s6]; exact h'.1, ?_⟩, s5]
    rcases s7 with s7 | ⟨s7, s8⟩
    · rcases h'.2 with h'' | h''
      · exact absurd (s7.trans h'') s3
      · omega
    · rw [s8, h.nil s7, symsLen]; omega
  unfold Pool.register
  rw [if_neg (fun hc => (hp hc.1).1 hc.2)]
  simp only
  have hlook : (P.startNames b).lookup b name = .ok none := by
    unfold Pool.lookup
    rw [if_neg (by rw [s2.slow]; simp), getByName_ok s1.ok (by rw [s1.map]; exact hsm) s2 hg, hfind]
  rw [hlook, Out.ok_bind]
  simp only
  rw [if_neg (fun hc => (hp hc.1).2 (by rw [← htags hc.1]; exact hc.2))]
  exact q1

theorem register_old_ok {P : Pool} (hP : PoolOk P) (hsm : P.mmapSize < 2147483648) {b : Bool} {l : List Sym} (h : TabOk P (P.tab b) l) {i : Nat} (hi : i < l.length) {t : XBT}
    (hp : b = false → t ≠ LAST) : ∃ Q, P.register b l[i].name t = .ok (Q, i) := by
  have hmem := List.getElem_mem hi
  have hl : l ≠ [] := List.ne_nil_of_mem hmem
  have hn := h.some hl
  have hg := h.good _ hmem
  have hst : P.startNames b = P := by unfold Pool.startNames; rw [if_neg hn]
  unfold Pool.register
  rw [if_neg (fun hc => hp hc.1 hc.2), hst]
  simp only
  unfold Pool.lookup
  rw [if_neg (by rw [h.slow]; simp), getByName_ok hP hsm h hg, Out.ok_bind]
  cases hf : findRec l[i].name (P.tab b).names 0 l with
  | none => exact absurd rfl (findRec_none l hf _ hmem)
  | some x =>
    obtain ⟨l1, s, l2, e, f2, f3, rfl⟩ := findRec_some l hf
    have hi' : l1.length = i := by
      have hnd := h.nodup
      have hlt : l1.length < l.length := by rw [e]; simp
      have h1 : (l.map (·.name))[l1.length]'(by simpa using hlt) = (l.map (·.name))[i]'(by simpa using hi) := by
        rw [List.getElem_map, List.getElem_map]
        rw [← f2]
        congr 1
        simp [e]
      exact (List.getElem_inj hnd).1 h1
    simp only
    rw [if_pos (by omega)]
    obtain ⟨n1, n2, n3, n4⟩ := h.names hn
    have hsz := hP.size
    have hsl := symsLen_append l1 (s :: l2)
    rw [← e, symsLen] at hsl
    have hrl := recLen_ge s
    have hwr : ∃ Q, P.extendType ⟨((0 + l1.length : Nat) : Int), (P.tab b).names + symsLen l1, s.type.code⟩ t = .ok Q := by
      unfold Pool.extendType
      split
      · exact ⟨P, rfl⟩
      · simp only [ofCode_code]
        exact ⟨_, Pool.wr_eq (a := (P.tab b).names + symsLen l1 + 2) (by simp only [List.length_cons, List.length_nil]; omega) _ (by simp)⟩
    obtain ⟨Q, hQ⟩ := hwr
    rw [hQ, Out.ok_bind]
    exact ⟨Q, by rw [Nat.zero_add, hi']; rfl⟩

theorem makeTable_ok {P : Pool} (hP : PoolOk P) (hsm : P.mmapSize < 2147483648) {b : Bool} {l : List Sym} (h : TabOk P (P.tab b) l) (hroom : P.alloc + 4 * l.length ≤ P.limit) :
    ∃ Q, P.makeTable b = .ok (Q, true) ∧ Q.limit = P.limit := by
  unfold Pool.makeTable
  have hst := (TabStep.refl hP b).setTab { P.tab b with index := 0 }
  have hT : (P.setTab b { P.tab b with index := 0 }).tab b = { P.tab b with index := 0 } := setTab_tab _ _ _
  have hmx := h.max
  have h0 : TabOk (P.setTab b { P.tab b with index := 0 }) { P.tab b with index := 0 } l :=
    ⟨h.max, h.few, h.good, h.nodup, h.slow, h.some, fun hn => by
      rw [setTab_alloc, setTab_mem]; exact h.names hn, fun hi => absurd rfl hi⟩
  have hSl : (P.setTab b { P.tab b with index := 0 }).limit = P.limit := setTab_limit _ _ _
  have hSa : (P.setTab b { P.tab b with index := 0 }).alloc = P.alloc := setTab_alloc _ _ _
  generalize hS : P.setTab b { P.tab b with index := 0 } = S at *
  simp only
  rw [hT]
  by_cases hneg : (P.tab b).maxId < 0
  · rw [if_pos hneg]
    exact ⟨S, rfl, hSl⟩
  · rw [if_neg hneg]
    have hl : l ≠ [] := by rintro rfl; simp at hmx; omega
    have hn : (P.tab b).names ≠ 0 := h.some hl
    rw [if_neg hn]
    have hpos := List.length_pos_iff.2 hl
    have haa : aa (4 * l.length) = 4 * l.length := aa_of_mod (by omega)
    have hall := allocRoom_eq (P := S) hst.ok (by rw [hst.map]; exact hsm) (size := 4 * l.length) (by omega) (by omega) (4 * ((P.tab b).maxId + 1)) (by omega)
    obtain ⟨u1, u2, u3, u4⟩ := allocate_step hst.ok b hall
    rw [hall, Out.ok_bind]
    simp only
    have hl1 : ({ S with mem := memPut S.mem S.alloc (List.replicate (aa (4 * l.length)) 0), alloc := S.alloc + aa (4 * l.length) } : Pool).limit = P.limit := hSl
    have ha1 : ({ S with mem := memPut S.mem S.alloc (List.replicate (aa (4 * l.length)) 0), alloc := S.alloc + aa (4 * l.length) } : Pool).alloc = S.alloc + 4 * l.length := by simp only; rw [haa]
    generalize ({ S with mem := memPut S.mem S.alloc (List.replicate (aa (4 * l.length)) 0), alloc := S.alloc + aa (4 * l.length) } : Pool) = S1 at *
    have t1 : TabOk S1 (S1.tab b) l := by
      rw [u2, hT]
      exact h0.frame u1.mono fun i hi => u1.keep i (h0.lt hi).2
    have hS1 := hst.trans u1
    rw [namesSize_ok hS1.ok t1, Out.ok_bind]
    simp only [setTab_self]
    have hmax : (S1.tab b).maxId = l.length - 1 := t1.max
    have hnn : (S1.tab b).names = (P.tab b).names := by rw [u2, hT]
    have hle : (S1.tab b).names ≠ 0 := by rw [hnn]; exact hn
    obtain ⟨n1, n2, n3, n4⟩ := t1.names hle
    have n3' := (h.names hn).2.2.1
    have hfew := h.few
    obtain ⟨R, q1, q2, q3, q4⟩ := indexLoop_ok (maxId := (S1.tab b).maxId) (ix := S.alloc) (stop := (S1.tab b).names + symsLen l) l S1 (S1.tab b).names 0 hS1.ok (by rw [hS1.map]; exact hsm) n4 t1.noNul n2 rfl
      (by omega) (by omega) (by omega) (by omega)
    have hcount : ((S1.tab b).maxId + 1).toNat = l.length := by omega
    rw [hcount, q1, Out.ok_bind, if_pos rfl]
    refine ⟨_, rfl, ?_⟩
    rw [setTab_limit, q2]; exact hl1

/-- a document whose symbols have not moved can be cleared -/
theorem clear_ok {P : Pool} (hP : PoolOk P) (hsm : P.mmapSize < 2147483648) {lt lp : List Sym} (ht : TabOk P P.tags lt) (hp : TabOk P P.params lp) (h1 : P.tags.names = poolHeader)
    (h2 : P.params.names = poolHeader + symsLen lt ∨ lp = []) (hroom : poolHeader + symsLen lt + symsLen lp + 4 * lt.length + 4 * lp.length ≤ P.limit) : ∃ Q, P.clear = .ok (Q, true) := by
  have hP0 : PoolOk { P with root := 0 } := by obtain ⟨a, b, c, d, e, f⟩ := hP; exact ⟨a, b, c, d, e, f⟩
  have ht0 : TabOk { P with root := 0 } P.tags lt := ht.frame (Nat.le_refl _) fun _ _ => rfl
  have hp0 : TabOk { P with root := 0 } P.params lp := hp.frame (Nat.le_refl _) fun _ _ => rfl
  have hsz := hP.size
  have hlim := hP.lim
  have hhd : poolHeader ≠ 0 := by decide
  have hph : poolHeader % 4 = 0 := by decide
  have hmt := symsLen_mod lt
  have hmp := symsLen_mod lp
  obtain ⟨n1, n2, n3, n4⟩ := ht.names (by rw [h1]; exact hhd)
  have hpa : lp ≠ [] → P.params.names + symsLen lp ≤ P.alloc := fun hl => (hp.names (hp.some hl)).2.2.1
  have hpa' : poolHeader + symsLen lt + symsLen lp ≤ P.alloc ∧ (lp = [] → P.params.names ≤ P.alloc) := by
    rcases h2 with h2 | h2
    · by_cases hl : lp = []
      · subst hl; exact ⟨by rw [symsLen]; omega, fun _ => by omega⟩
      · have := hpa hl; exact ⟨by omega, fun h => absurd h hl⟩
    · subst h2
      refine ⟨by rw [symsLen]; omega, fun _ => ?_⟩
      by_cases hn : P.params.names = 0
      · omega
      · have := (hp.names hn).2.2.1; omega
  unfold Pool.clear
  simp only
  rw [namesSize_ok hP0 ht0, Out.ok_bind]
  simp only
  rw [namesSize_ok (P := { P with root := 0 }) hP0 hp0, Out.ok_bind]
  simp only
  unfold Pool.clearSave
  rw [if_neg (by simp only; omega), Out.pure_eq, Out.ok_bind]
  simp only
  unfold Pool.clearMove
  rw [if_pos h1, Out.pure_eq, Out.ok_bind]
  simp only
  rw [if_neg (by simp)]
  have hmove : ∃ W, (if P.params.names = poolHeader + symsLen lt then (pure ({ P with root := 0 }, true) : Out (Pool × Bool)) else if poolHeader + symsLen lt ≥ P.tags.names + symsLen lt ∨ poolHeader + symsLen lt + symsLen lp ≤ P.tags.names then (do
      let P ← Pool.copy { P with root := 0 } (poolHeader + symsLen lt) P.params.names (symsLen lp)
      pure (P, true)) else pure ({ P with root := 0 }, false)) = .ok (W, true) ∧ W = { P with root := 0, mem := W.mem } ∧ W.mem = P.mem := by
    by_cases hc : P.params.names = poolHeader + symsLen lt
    · rw [if_pos hc]; exact ⟨_, rfl, rfl, rfl⟩
    · have hl : lp = [] := h2.resolve_left hc
      subst hl
      rw [if_neg hc, if_pos (Or.inl (by omega))]
      unfold Pool.copy
      rw [rd_eq (f := Pool.img { P with root := 0 }) (a := P.params.names) (n := symsLen []) (bs := []) rfl rfl (by simp only [symsLen]; show _ ≤ P.fileSize; have := hpa'.2 rfl; omega), Out.ok_bind, Pool.wr_eq (a := poolHeader + symsLen lt) (by simp; omega) _ rfl, Out.ok_bind]
      exact ⟨_, rfl, rfl, by funext i; exact memPut_frame _ _ _ _ (by simp only [List.length_nil]; omega)⟩
  obtain ⟨W, hW, hW2, hW3⟩ := hmove
  rw [hW, Out.ok_bind]
  simp only
  rw [if_neg (by simp)]
  unfold Pool.clearEnd
  simp only
  have hWt : W.tags = P.tags := by rw [hW2]
  have hWp : W.params = P.params := by rw [hW2]
  have hWf : W.fileSize = P.fileSize := by rw [hW2]
  have hWm : W.mmapSize = P.mmapSize := by rw [hW2]
  have hWl : W.limit = P.limit := by rw [hW2]
  have hWa : W.alloc = P.alloc := by rw [hW2]
  rw [Pool.wr_eq (a := poolHeader + symsLen lt + symsLen lp) (by rw [List.length_replicate]; show _ ≤ W.fileSize; omega) _ rfl, Out.ok_bind]
  simp only
  have hXok : PoolOk ({ W with alloc := poolHeader + symsLen lt + symsLen lp, tags := { W.tags with names := poolHeader, index := 0 }, params := { W.params with names := poolHeader + symsLen lt, index := 0 }, mem := memPut W.mem (poolHeader + symsLen lt + symsLen lp) (List.replicate (W.alloc - (poolHeader + symsLen lt + symsLen lp)) 0) } : Pool) := by
    refine ⟨by simp only; omega, by simp only; omega, ?_, ?_, ?_, ?_⟩
    · simp only; omega
    · simp only; rw [hWl, hWf]; exact hP.lim
    · simp only; rw [hWm, hWf]; exact hP.map
    · simp only; rw [hWf]; exact hP.page
  have hzero : ∀ i, i < poolHeader + symsLen lt + symsLen lp → memPut W.mem (poolHeader + symsLen lt + symsLen lp) (List.replicate (W.alloc - (poolHeader + symsLen lt + symsLen lp)) 0) i = P.mem i := fun i hi => by
    rw [memPut_frame _ _ _ _ (Or.inl (by omega)), hW3]
  generalize hX : ({ W with alloc := poolHeader + symsLen lt + symsLen lp, tags := { W.tags with names := poolHeader, index := 0 }, params := { W.params with names := poolHeader + symsLen lt, index := 0 }, mem := memPut W.mem (poolHeader + symsLen lt + symsLen lp) (List.replicate (W.alloc - (poolHeader + symsLen lt + symsLen lp)) 0) } : Pool) = X at *
  have hXa : X.alloc = poolHeader + symsLen lt + symsLen lp := by rw [← hX]
  have hXl : X.limit = P.limit := by rw [← hX]; exact hWl
  have hXm : X.mmapSize = P.mmapSize := by rw [← hX]; exact hWm
  have hXt : TabOk X (X.tab true) lt := by
    have : X.tab true = { P.tags with names := poolHeader, index := 0 } := by rw [← hX]; show { W.tags with names := poolHeader, index := 0 } = _; rw [hWt]
    rw [this]
    have n4' := n4
    rw [h1] at n4'
    refine ht.moved (Nat.le_refl _) hph (by omega) (n4'.congr fun i i1 i2 => ?_)
    rw [encSyms_length] at i2
    rw [← hX]; exact hzero i (by omega)
  have hXp : TabOk X (X.tab false) lp := by
    have : X.tab false = { P.params with names := poolHeader + symsLen lt, index := 0 } := by rw [← hX]; show { W.params with names := poolHeader + symsLen lt, index := 0 } = _; rw [hWp]
    rw [this]
    refine hp.moved (by omega) (by omega) (by omega) ?_
    rcases h2 with h2 | h2
    · have := hp.has
      rw [h2] at this
      refine this.congr fun i i1 i2 => ?_
      rw [encSyms_length] at i2
      rw [← hX]; exact hzero i (by omega)
    · subst h2; rfl
  obtain ⟨Y, y1, y2⟩ := makeTable_ok hXok (by rw [hXm]; exact hsm) hXt (by omega)
  obtain ⟨m1, m2, m3, m4, m5, m6⟩ := makeTable_spec hXok (by rw [hXm]; exact hsm) hXt y1
  have hpY : TabOk Y (Y.tab false) lp := by
    rw [m1.other false (by simp)]
    exact hXp.frame m1.mono fun i hi => m1.keep i (hXp.lt hi).2
  have := m6 rfl
  obtain ⟨Z, z1, z2⟩ := makeTable_ok m1.ok (by rw [m1.map, hXm]; exact hsm) hpY (by omega)
  rw [y1, Out.ok_bind, if_neg (by simp)]
  exact ⟨Z, z1⟩

end BX
