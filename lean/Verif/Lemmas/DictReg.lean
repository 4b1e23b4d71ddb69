import Verif.Lemmas.DictOps
/-
Registering symbols, and the index of the records.
-/
namespace BX
open XBT Spec

theorem code_inj {t u : XBT} (h : t.code = u.code) : t = u := by
  have := congrArg ofCode h
  rw [ofCode_code, ofCode_code] at this
  exact Option.some.inj this

theorem findRec_none {name : BStr} : ∀ (l : List Sym) {p k : Nat}, findRec name p k l = none → ∀ s ∈ l, s.name ≠ name
  | [], p, k, h, s, hs => by simp at hs
  | x :: l, p, k, h, s, hs => by
    unfold findRec at h
    by_cases hx : x.name = name
    · rw [if_pos hx] at h; cases h
    · rw [if_neg hx] at h
      rcases List.mem_cons.1 hs with rfl | hs
      · exact hx
      · exact findRec_none l h s hs

theorem findRec_some {name : BStr} : ∀ (l : List Sym) {p k : Nat} {x : Found}, findRec name p k l = some x →
    ∃ l1 s l2, l = l1 ++ s :: l2 ∧ s.name = name ∧ (∀ s' ∈ l1, s'.name ≠ name) ∧ x = ⟨(k + l1.length : Nat), p + symsLen l1, s.type.code⟩
  | [], p, k, x, h => by cases h
  | y :: l, p, k, x, h => by
    unfold findRec at h
    by_cases hx : y.name = name
    · rw [if_pos hx] at h
      simp only [Option.some.injEq] at h
      exact ⟨[], y, l, rfl, hx, by simp, h ▸ rfl⟩
    · rw [if_neg hx] at h
      obtain ⟨l1, s, l2, h1, h2, h3, h4⟩ := findRec_some l h
      refine ⟨y :: l1, s, l2, by rw [h1]; rfl, h2, ?_, ?_⟩
      · intro s' hs'
        rcases List.mem_cons.1 hs' with rfl | hs'
        · exact hx
        · exact h3 s' hs'
      · rw [h4, symsLen, List.length_cons]
        congr 1 <;> omega

theorem position_none {name : BStr} {l : List Sym} (h : ∀ s ∈ l, s.name ≠ name) : position name l = none := by
  unfold position
  rw [List.findIdx?_eq_none_iff]
  intro s hs
  simpa using h s hs

theorem position_mid {name : BStr} : ∀ {l1 l2 : List Sym} {s : Sym}, (∀ s' ∈ l1, s'.name ≠ name) → s.name = name → position name (l1 ++ s :: l2) = some l1.length
  | [], l2, s, h, hs => by unfold position; simp [List.findIdx?_cons, hs]
  | x :: l1, l2, s, h, hs => by
    have := position_mid (l1 := l1) (l2 := l2) (s := s) (fun s' h' => h s' (List.mem_cons_of_mem _ h')) hs
    have hx := h x List.mem_cons_self
    unfold position at this ⊢
    rw [List.cons_append, List.findIdx?_cons]
    simp [hx, this]

theorem registered_new {name : BStr} {l : List Sym} {t : XBT} (h : ∀ s ∈ l, s.name ≠ name) : registered l name t = l ++ [⟨name, t⟩] := by
  unfold registered; rw [position_none h]

/-- the symbol after its type has been extended -/
def extendSym (s : Sym) (t : XBT) : Sym := if s.type = t then s else ⟨s.name, joinTypes t s.type⟩

theorem registered_old {name : BStr} {l1 l2 : List Sym} {s : Sym} {t : XBT} (h : ((l1 ++ s :: l2).map (·.name)).Nodup) (hs : s.name = name) :
    registered (l1 ++ s :: l2) name t = l1 ++ extendSym s t :: l2 := by
  have hnd := h
  rw [List.map_append, List.map_cons, List.nodup_append] at hnd
  obtain ⟨-, h2, h3⟩ := hnd
  have hl1 : ∀ s' ∈ l1, s'.name ≠ name := fun s' hs' => hs ▸ h3 s'.name (List.mem_map_of_mem hs') s.name List.mem_cons_self
  have hl2 : ∀ s' ∈ l2, s'.name ≠ name := fun s' hs' he => (List.nodup_cons.1 h2).1 (by rw [hs, ← he]; exact List.mem_map_of_mem hs')
  unfold registered
  rw [position_mid hl1 hs]
  simp only [List.map_append, List.map_cons]
  have e1 : ∀ l : List Sym, (∀ s' ∈ l, s'.name ≠ name) → l.map (fun s => if s.name = name ∧ s.type ≠ t then (⟨name, joinTypes t s.type⟩ : Sym) else s) = l := by
    intro l hl
    conv => rhs; rw [← List.map_id l]
    exact List.map_congr_left fun x hx => by rw [if_neg (fun hc => hl x hx hc.1)]; rfl
  rw [e1 l1 hl1, e1 l2 hl2]
  congr 2
  unfold extendSym
  by_cases ht : s.type = t
  · rw [if_pos ht, if_neg (by simp [ht])]
  · rw [if_neg ht, if_pos ⟨hs, ht⟩, hs]

theorem recLen_extend (s : Sym) (t : XBT) : recLen (extendSym s t) = recLen s := by
  unfold recLen extendSym; split <;> rfl
theorem name_extend (s : Sym) (t : XBT) : (extendSym s t).name = s.name := by
  unfold extendSym; split <;> rfl
theorem encIdx_extend : ∀ (l1 l2 : List Sym) (s : Sym) (t : XBT) (p : Nat), encIdx p (l1 ++ extendSym s t :: l2) = encIdx p (l1 ++ s :: l2)
  | [], l2, s, t, p => by simp only [List.nil_append, encIdx, recLen_extend]
  | x :: l1, l2, s, t, p => by simp only [List.cons_append, encIdx, encIdx_extend l1]
theorem symsLen_extend (l1 l2 : List Sym) (s : Sym) (t : XBT) : symsLen (l1 ++ extendSym s t :: l2) = symsLen (l1 ++ s :: l2) := by
  simp only [symsLen_append, symsLen, recLen_extend]

/-- a search by name -/
theorem getByName_ok {P : Pool} (hP : PoolOk P) (hsm : P.mmapSize < 2147483648) {T : Tab16} {l : List Sym} (h : TabOk P T l) {name : BStr} (hg : GoodName name) : P.getByName T name = .ok (findRec name T.names 0 l) := by
  unfold Pool.getByName
  by_cases hi : T.index = 0
  · rw [if_pos hi]
    by_cases hn : T.names = 0
    · have := h.nil hn
      subst this
      have hm := h.max
      simp only [List.length_nil, Int.natCast_zero, Int.zero_sub] at hm
      show P.img.byNameSeq P.alloc T.maxId name (P.alloc + 3 + 1) 0 T.names = _
      unfold Img.byNameSeq
      rw [if_pos (by omega)]; rfl
    · obtain ⟨h1, h2, h3, h4⟩ := h.names hn
      have hr := symsLen_mod l
      have hf := h.few
      have hm := h.max
      have hpos : 0 < poolHeader := by decide
      have h8 : 2 * l.length < P.alloc + 4 := by
        have hll : ∀ l : List Sym, (∀ s ∈ l, GoodName s.name) → 8 * l.length ≤ symsLen l := by
          intro l
          induction l with
          | nil => intro _; exact Nat.le_refl _
          | cons s l ih =>
            intro hgl
            have h1 := ih fun s hs => hgl s (List.mem_cons_of_mem _ hs)
            have h2 := recLen_ge s
            have h3 : 0 < s.name.length := List.length_pos_iff.2 (hgl s List.mem_cons_self).1
            rw [symsLen, List.length_cons]; omega
        have := hll l h.good
        omega
      have hid : if l = [] then (0 : Int) = ((0 : Nat) : Int) else (0 : Int) ≤ T.maxId := by
        by_cases hl : l = []
        · rw [if_pos hl]; rfl
        · rw [if_neg hl, hm]; have := List.length_pos_iff.2 hl; omega
      exact byNameSeq_ok (f := P.img) (maxId := T.maxId) hg hP.size l T.names 0 _ 0 h4 h.good h2 h3 (by rw [hm]; simp) (by omega) hid h8
  · rw [if_neg hi]
    obtain ⟨h1, h2, h3, h4⟩ := h.index hi
    obtain ⟨n1, n2, n3, n4⟩ := h.names h1
    have hf := h.few
    have hs := hP.size
    have hmap := hP.map
    have hm : (T.maxId + 1).toNat = l.length := by rw [h.max]; omega
    rw [hm]
    exact byNameIdx_ok (f := P.img) l T.names 0 n4 h.noNul (by show _ ≤ P.fileSize; omega) (by show P.fileSize < _; omega) (by omega) (by rw [Nat.mul_zero, Nat.add_zero]; exact h4) (by show _ ≤ P.fileSize; omega)

/-- what is known after a symbol has been registered -/
structure RegStep (P Q : Pool) (b : Bool) (l l' : List Sym) : Prop where
  ok : PoolOk Q
  mono : P.alloc ≤ Q.alloc
  file : Q.fileSize = P.fileSize
  map : Q.mmapSize = P.mmapSize
  root : Q.root = P.root
  other : ∀ c, c ≠ b → Q.tab c = P.tab c
  keep : ∀ i, i < P.alloc → ¬ inNames (P.tab b) l i → Q.mem i = P.mem i
  tab : TabOk Q (Q.tab b) l'
  names : ∀ i, inNames (Q.tab b) l' i → inNames (P.tab b) l i ∨ P.alloc ≤ i
  index : ∀ i, inIndex (Q.tab b) l' i → inIndex (P.tab b) l i

theorem startNames_spec {P : Pool} (hP : PoolOk P) {b : Bool} {l : List Sym} (h : TabOk P (P.tab b) l) :
    TabStep P (P.startNames b) b ∧ TabOk (P.startNames b) ((P.startNames b).tab b) l ∧ ((P.startNames b).tab b).names ≠ 0 ∧ (P.startNames b).mem = P.mem ∧ (P.startNames b).alloc = P.alloc ∧
      ((P.startNames b).tab b).index = (P.tab b).index ∧ (((P.startNames b).tab b).names = (P.tab b).names ∨ ((P.tab b).names = 0 ∧ ((P.startNames b).tab b).names = P.alloc)) := by
  unfold Pool.startNames
  by_cases hn : (P.tab b).names = 0
  · rw [if_pos hn]
    have hl := h.nil hn
    have hhead := hP.head
    have hal := hP.al
    have hpos : 0 < poolHeader := by decide
    subst hl
    refine ⟨(TabStep.refl hP b).setTab _, ?_, ?_, setTab_mem _ _ _, setTab_alloc _ _ _, ?_, ?_⟩
    · rw [setTab_tab]
      refine ⟨h.max, h.few, h.good, h.nodup, h.slow, fun hc => absurd rfl hc, fun _ => ⟨?_, ?_, ?_, rfl⟩, fun hi => absurd hn (h.index hi).1⟩
      · simp only; omega
      · exact hal
      · rw [setTab_alloc]; exact Nat.le_refl _
    · rw [setTab_tab]; simp only; omega
    · rw [setTab_tab]
    · rw [setTab_tab]; exact Or.inr ⟨hn, rfl⟩
  · rw [if_neg hn]
    exact ⟨TabStep.refl hP b, h, hn, rfl, rfl, rfl, Or.inl rfl⟩

theorem mem_ext {m m' : Mem} {A a : Nat} {bs : List UInt8} (h : Has m a bs) (i : Nat) (hi : i < bs.length) (v : UInt8) (hA : A = a + i) : Has (memPut m A [v]) a (bs.set i v) := by
  subst hA
  unfold Has
  rw [List.length_set]
  apply List.ext_getElem
  · simp [slice_length]
  · intro j j1 j2
    rw [slice_length] at j1
    rw [slice_getElem, List.getElem_set]
    by_cases hj : i = j
    · subst hj
      rw [if_pos rfl]
      have := (Has.self m (a + i) [v]).get 0 (by simp)
      simpa using this
    · rw [if_neg hj, memPut_frame _ _ _ _ (by simp; omega)]
      exact h.get j j1

/-- the records after the type of one has been changed -/
theorem encSyms_extend {l1 l2 : List Sym} {s s' : Sym} (hn : s'.name = s.name) :
    encSyms 0 (l1 ++ s' :: l2) = (encSyms 0 (l1 ++ s :: l2)).set (symsLen l1 + 2) s'.type.code := by
  rw [encSyms_append, encSyms_append, encSyms, encSyms, List.set_append_right _ _ (by rw [encSyms_length]; omega), encSyms_length]
  congr 1
  have h2 : symsLen l1 + 2 - symsLen l1 = 2 := by omega
  rw [h2, List.set_append_left _ _ (by rw [encRec_length]; have := recLen_ge s; omega)]
  congr 1
  unfold encRec symRecord recLen
  rw [hn]
  simp [leN]

theorem encIdx_retype : ∀ (l1 l2 : List Sym) (s : Sym) (u : XBT) (p : Nat), encIdx p (l1 ++ (⟨s.name, u⟩ : Sym) :: l2) = encIdx p (l1 ++ s :: l2)
  | [], _, _, _, _ => rfl
  | a :: l1, l2, s, u, p => by rw [List.cons_append, List.cons_append, encIdx, encIdx, encIdx_retype l1]

/-- the type of a symbol is changed in place -/
theorem retype_spec {P Q : Pool} (hP : PoolOk P) {b : Bool} {l1 l2 : List Sym} {s : Sym} (h : TabOk P (P.tab b) (l1 ++ s :: l2))
    (hdis : ∀ i, inNames (P.tab b) (l1 ++ s :: l2) i → ¬ inIndex (P.tab b) (l1 ++ s :: l2) i) {u : XBT} {A : Int} (hA : A = (P.tab b).names + symsLen l1 + 2)
    (ho : P.wr A [u.code] = .ok Q) : RegStep P Q b (l1 ++ s :: l2) (l1 ++ ⟨s.name, u⟩ :: l2) ∧ Q.tab b = P.tab b := by
  obtain ⟨a, ha, h1, rfl⟩ := Pool.wr_ok ho
  have hn : (P.tab b).names ≠ 0 := h.some (by simp)
  obtain ⟨n1, n2, n3, n4⟩ := h.names hn
  have ha' : a = (P.tab b).names + (symsLen l1 + 2) := by omega
  subst ha'
  have hsl := symsLen_append l1 (s :: l2)
  have hrl := recLen_ge s
  rw [symsLen] at hsl
  have hin : inNames (P.tab b) (l1 ++ s :: l2) ((P.tab b).names + (symsLen l1 + 2)) := ⟨hn, by omega, by omega⟩
  have hne : ∀ i, i ≠ (P.tab b).names + (symsLen l1 + 2) → memPut P.mem ((P.tab b).names + (symsLen l1 + 2)) [u.code] i = P.mem i := fun i hi =>
    memPut_frame _ _ _ _ (by simp only [List.length_cons, List.length_nil]; omega)
  have hlen : symsLen (l1 ++ (⟨s.name, u⟩ : Sym) :: l2) = symsLen (l1 ++ s :: l2) := by
    rw [symsLen_append, symsLen_append, symsLen, symsLen]; rfl
  refine ⟨⟨hP.mem _, Nat.le_refl _, rfl, rfl, rfl, fun _ _ => rfl, fun i _ hi => hne i (fun hc => hi (hc ▸ hin)), ?_, fun i hi => Or.inl ?_, fun i hi => ?_⟩, rfl⟩
  · have hnames : (l1 ++ (⟨s.name, u⟩ : Sym) :: l2).map (·.name) = (l1 ++ s :: l2).map (·.name) := by simp
    refine ⟨?_, ?_, ?_, by rw [hnames]; exact h.nodup, h.slow, fun _ => hn, fun _ => ⟨n1, n2, ?_, ?_⟩, fun hi => ?_⟩
    · show (P.tab b).maxId = _
      have := h.max; simpa using this
    · have := h.few; simpa using this
    · intro x hx
      rcases List.mem_append.1 hx with hx | hx
      · exact h.good x (List.mem_append_left _ hx)
      · rcases List.mem_cons.1 hx with rfl | hx
        · exact h.good s (by simp)
        · exact h.good x (List.mem_append_right _ (List.mem_cons_of_mem _ hx))
    · rw [hlen]; exact n3
    · rw [encSyms_extend (s := s) (s' := ⟨s.name, u⟩) rfl]
      exact mem_ext (m' := P.mem) n4 _ (by rw [encSyms_length]; omega) _ rfl
    · obtain ⟨i1, i2, i3, i4⟩ := h.index hi
      refine ⟨i1, i2, ?_, ?_⟩
      · show (P.tab b).index + _ ≤ P.alloc
        simpa using i3
      show Has _ (P.tab b).index (encIdx (P.tab b).names _)
      rw [encIdx_retype]
      refine i4.congr fun i j1 j2 => hne i fun hc => ?_
      rw [encIdx_length] at j2
      exact hdis i (hc ▸ hin) ⟨hi, j1, by simpa using j2⟩
  · have hi' : inNames (P.tab b) (l1 ++ (⟨s.name, u⟩ : Sym) :: l2) i := hi
    unfold inNames at hi' ⊢
    rw [hlen] at hi'
    exact hi'
  · have hi' : inIndex (P.tab b) (l1 ++ (⟨s.name, u⟩ : Sym) :: l2) i := hi
    unfold inIndex at hi' ⊢
    simpa using hi'

theorem extend_spec {P Q : Pool} (hP : PoolOk P) {b : Bool} {l1 l2 : List Sym} {s : Sym} (h : TabOk P (P.tab b) (l1 ++ s :: l2))
    (hdis : ∀ i, inNames (P.tab b) (l1 ++ s :: l2) i → ¬ inIndex (P.tab b) (l1 ++ s :: l2) i) {t : XBT} {id : Int}
    (ho : P.extendType ⟨id, (P.tab b).names + symsLen l1, s.type.code⟩ t = .ok Q) : RegStep P Q b (l1 ++ s :: l2) (l1 ++ extendSym s t :: l2) ∧ Q.tab b = P.tab b := by
  unfold Pool.extendType at ho
  by_cases ht : s.type = t
  · rw [if_pos (by rw [ht])] at ho
    simp only [Out.pure_eq, Out.ok.injEq] at ho
    subst ho
    have : extendSym s t = s := by unfold extendSym; rw [if_pos ht]
    rw [this]
    exact ⟨⟨hP, Nat.le_refl _, rfl, rfl, rfl, fun _ _ => rfl, fun _ _ _ => rfl, h, fun _ hi => Or.inl hi, fun _ hi => hi⟩, rfl⟩
  · rw [if_neg (fun hc => ht (code_inj hc))] at ho
    simp only [ofCode_code] at ho
    have hx : extendSym s t = ⟨s.name, joinTypes t s.type⟩ := by unfold extendSym; rw [if_neg ht]
    rw [hx]
    exact retype_spec hP h hdis (by push_cast; rfl) ho

theorem register_spec {P Q : Pool} (hP : PoolOk P) (hsm : P.mmapSize < 2147483648) {b : Bool} {l : List Sym} (h : TabOk P (P.tab b) l) (hself : ∀ i, inNames (P.tab b) l i → ¬ inIndex (P.tab b) l i) {name : BStr} {t : XBT} (hg : GoodName name)
    (hfew : l.length < 128 ∨ ∃ s ∈ l, s.name = name) {id : Int} (ho : P.register b name t = .ok (Q, id)) :
    (id = -1 ∧ RegStep P Q b l l) ∨
    (∃ i : Nat, position name (registered l name t) = some i ∧ id = i ∧ RegStep P Q b l (registered l name t) ∧ ((∃ s ∈ l, s.name = name) → Q.tab b = P.tab b)) := by
  unfold Pool.register at ho
  by_cases hlast : b = false ∧ t = LAST
  · rw [if_pos hlast] at ho
    simp only [Out.pure_eq, Out.ok.injEq, Prod.mk.injEq] at ho
    obtain ⟨rfl, rfl⟩ := ho
    exact Or.inl ⟨rfl, ⟨hP, Nat.le_refl _, rfl, rfl, rfl, fun _ _ => rfl, fun _ _ _ => rfl, h, fun _ hi => Or.inl hi, fun _ hi => hi⟩⟩
  · rw [if_neg hlast] at ho
    obtain ⟨s1, s2, s3, s4, s5, s6, s7⟩ := startNames_spec hP h
    generalize hS : P.startNames b = S at *
    simp only at ho
    -- what the new start changes
    have hN : ∀ i, inNames (S.tab b) l i → inNames (P.tab b) l i := by
      rintro i ⟨i1, i2, i3⟩
      rcases s7 with s7 | ⟨s7, -⟩
      · exact ⟨by rw [← s7]; exact s3, by omega, by omega⟩
      · rw [h.nil s7, symsLen] at i3; omega
    have hI : ∀ i, inIndex (S.tab b) l i → inIndex (P.tab b) l i := by
      rintro i ⟨i1, i2, i3⟩
      exact ⟨by omega, by omega, by omega⟩
    have hcomp : ∀ {R l'}, RegStep S R b l l' → RegStep P R b l l' := by
      intro R l' r
      refine ⟨r.ok, by have := r.mono; omega, r.file.trans s1.file, r.map.trans s1.map, r.root.trans s1.root, fun c hc => (r.other c hc).trans (s1.other c hc), fun i i1 i2 => ?_, r.tab, fun i hi => ?_, fun i hi => hI i (r.index i hi)⟩
      · rw [r.keep i (by omega) fun hc => i2 (hN i hc), s4]
      · rcases r.names i hi with hi | hi
        · exact Or.inl (hN i hi)
        · exact Or.inr (by omega)
    -- nothing is registered
    have hfail : RegStep S S b l l := ⟨s1.ok, Nat.le_refl _, rfl, rfl, rfl, fun _ _ => rfl, fun _ _ _ => rfl, s2, fun _ hi => Or.inl hi, fun _ hi => hi⟩
    -- a new symbol
    have hnewc : (∀ s ∈ l, s.name ≠ name) → (if b = false ∧ S.tags.names = 0 then pure (S, -1) else S.addSymbol b name t) = .ok (Q, id) →
        (id = -1 ∧ RegStep P Q b l l) ∨ (∃ i : Nat, position name (registered l name t) = some i ∧ id = i ∧ RegStep P Q b l (registered l name t) ∧ ((∃ s ∈ l, s.name = name) → Q.tab b = P.tab b)) := by
      intro hnew hq
      have hlt : l.length < 128 := by
        rcases hfew with hf | ⟨s, hs, he⟩
        · exact hf
        · exact absurd he (hnew s hs)
      by_cases hc : b = false ∧ S.tags.names = 0
      · rw [if_pos hc] at hq
        simp only [Out.pure_eq, Out.ok.injEq, Prod.mk.injEq] at hq
        obtain ⟨rfl, rfl⟩ := hq
        exact Or.inl ⟨rfl, hcomp hfail⟩
      · rw [if_neg hc] at hq
        obtain ⟨a1, a2⟩ := addSymbol_spec s1.ok s2 s3 hg hnew hlt hq
        rcases a2 with ⟨rfl, a3, a4, a5⟩ | ⟨rfl, a3, a4, a5⟩
        · refine Or.inl ⟨rfl, hcomp ⟨a1.ok, a1.mono, a1.file, a1.map, a1.root, a1.other, fun i i1 _ => a1.keep i i1, a3, ?_, ?_⟩⟩
          · rintro i ⟨i1, i2, i3⟩
            rcases a5 with a5 | a5
            · exact Or.inl ⟨s3, by omega, by omega⟩
            · exact Or.inr (by omega)
          · rintro i ⟨i1, i2, i3⟩
            rcases a4 with rfl | a4
            · exact ⟨i1, i2, i3⟩
            · exact absurd a4 i1
        · refine Or.inr ⟨l.length, ?_, rfl, ?_, fun ⟨s, hs, he⟩ => absurd he (hnew s hs)⟩
          · rw [registered_new hnew]
            exact position_mid hnew rfl
          · rw [registered_new hnew]
            refine hcomp ⟨a1.ok, a1.mono, a1.file, a1.map, a1.root, a1.other, fun i i1 _ => a1.keep i i1, a3, ?_, ?_⟩
            · rintro i ⟨i1, i2, i3⟩
              rcases a5 with ⟨a5, a6⟩ | a5
              · by_cases hlt' : i < S.alloc
                · exact Or.inl ⟨s3, by omega, by omega⟩
                · exact Or.inr (by omega)
              · exact Or.inr (by omega)
            · rintro i ⟨i1, i2, i3⟩
              exact absurd a4 i1
    obtain ⟨r, h1, ho⟩ := Out.bind_eq_ok ho
    unfold Pool.lookup at h1
    rw [if_neg (by rw [s2.slow]; simp), getByName_ok s1.ok (s1.map ▸ hsm) s2 hg] at h1
    simp only [Out.ok.injEq] at h1
    subst h1
    cases hf : findRec name (S.tab b).names 0 l with
    | none =>
      rw [hf] at ho
      exact hnewc (findRec_none l hf) ho
    | some x =>
      rw [hf] at ho
      obtain ⟨l1, s, l2, rfl, f2, f3, rfl⟩ := findRec_some l hf
      simp only at ho
      rw [if_pos (by omega)] at ho
      obtain ⟨R, h2, ho⟩ := Out.bind_eq_ok ho
      simp only [Out.pure_eq, Out.ok.injEq, Prod.mk.injEq] at ho
      obtain ⟨rfl, rfl⟩ := ho
      have hdis : ∀ i, inNames (S.tab b) (l1 ++ s :: l2) i → ¬ inIndex (S.tab b) (l1 ++ s :: l2) i := fun i i1 i2 => hself i (hN i i1) (hI i i2)
      obtain ⟨e1, e2⟩ := extend_spec s1.ok s2 hdis h2
      rw [registered_old h.nodup f2]
      refine Or.inr ⟨l1.length, position_mid f3 (by rw [name_extend]; exact f2), by simp, hcomp e1, fun _ => ?_⟩
      have hn0 : (P.tab b).names ≠ 0 := h.some (by simp)
      rw [e2, ← hS]
      unfold Pool.startNames
      rw [if_neg hn0]

/-! ### the index -/

theorem indexLoop_ok {maxId : Int} {ix stop : Nat} : ∀ (l : List Sym) (P : Pool) (p k : Nat), PoolOk P → P.mmapSize < 2147483648 →
    Has P.mem p (encSyms k l) → (∀ s ∈ l, NoNul s.name) → p % 4 = 0 → p + symsLen l = stop → stop ≤ ix → ix + 4 * (k + l.length) ≤ P.alloc → maxId = k + l.length - 1 → k + l.length ≤ 32768 →
    ∃ Q, Pool.indexLoop maxId ix stop l.length P p = .ok (Q, true) ∧ Q = { P with mem := Q.mem } ∧ Has Q.mem (ix + 4 * k) (encIdx p l) ∧
      ∀ i, (i < ix + 4 * k ∨ ix + 4 * (k + l.length) ≤ i) → Q.mem i = P.mem i
  | [], P, p, k, hP, hsm, h, hg, hp, h1, h2, h3, h4, h5 => ⟨P, rfl, rfl, rfl, fun _ _ => rfl⟩
  | s :: l, P, p, k, hP, hsm, h, hg, hp, h1, h2, h3, h4, h5 => by
    rw [encSyms, Has.append, encRec_length] at h
    have hr := recAt_of (by simp only [List.length_cons] at h5; omega) h.1
    have hlen := recLen_ge s
    have hsz := hP.size
    have hmp := hP.map
    rw [symsLen] at h1
    rw [List.length_cons] at h3 h4 h5
    have hgs := hg s List.mem_cons_self
    have hid : P.img.i16 (p : Int) = .ok (k : Int) := Img.i16_ok (f := P.img) hr.id (by show _ ≤ P.fileSize; omega) (by omega) _ rfl
    have hwr : P.wr ((ix : Int) + 4 * (k : Int)) (le32 (p : Int)) = .ok { P with mem := memPut P.mem (ix + 4 * k) (le32 (p : Int)) } := Pool.wr_eq (a := ix + 4 * k) (by rw [le32_length]; omega) _ (by omega)
    have hfr : ∀ i, i < ix + 4 * k ∨ ix + 4 * k + 4 ≤ i → memPut P.mem (ix + 4 * k) (le32 (p : Int)) i = P.mem i := fun i hi => memPut_frame _ _ _ _ (by simpa using hi)
    have hstr : ({ P with mem := memPut P.mem (ix + 4 * k) (le32 (p : Int)) } : Pool).img.str ((p : Int) + 3) = .ok s.name := by
      refine Img.str_ok (f := Pool.img { P with mem := memPut P.mem (ix + 4 * k) (le32 (p : Int)) }) (hr.nm.congr fun i _ i2 => hfr i (Or.inl ?_)) hgs ?_ _ (by omega)
      · simp only [List.length_append, List.length_cons, List.length_nil] at i2; omega
      · show _ ≤ P.fileSize
        omega
    obtain ⟨Q, q1, q2, q3, q4⟩ := indexLoop_ok (maxId := maxId) (ix := ix) (stop := stop) l { P with mem := memPut P.mem (ix + 4 * k) (le32 (p : Int)) } (p + recLen s) (k + 1) (hP.mem _) hsm
      (h.2.congr fun i _ i2 => hfr i (Or.inl (by rw [encSyms_length] at i2; omega))) (fun s hs => hg s (List.mem_cons_of_mem _ hs)) (by omega) (by omega) h2 (by show _ ≤ P.alloc; omega) (by omega) (by omega)
    refine ⟨Q, ?_, ?_, ?_, ?_⟩
    · rw [List.length_cons]
      unfold Pool.indexLoop
      rw [if_neg (by omega), hid, Out.ok_bind, if_neg (by omega), hwr, Out.ok_bind, hstr, Out.ok_bind, (aa_next hp).1]
      exact q1
    · rw [q2]
    · rw [encIdx, Has.append, le32_length]
      refine ⟨(Has.self P.mem (ix + 4 * k) (le32 (p : Int))).congr fun i _ i2 => q4 i (Or.inl (by rw [le32_length] at i2; omega)), ?_⟩
      have : ix + 4 * k + 4 = ix + 4 * (k + 1) := by omega
      rw [this]; exact q3
    · intro i hi
      rw [List.length_cons] at hi
      rw [q4 i (by omega)]
      exact hfr i (by omega)

theorem makeTable_spec {P Q : Pool} (hP : PoolOk P) (hsm : P.mmapSize < 2147483648) {b : Bool} {l : List Sym} (h : TabOk P (P.tab b) l) {r : Bool} (ho : P.makeTable b = .ok (Q, r)) :
    TabStep P Q b ∧ TabOk Q (Q.tab b) l ∧ (Q.tab b).names = (P.tab b).names ∧ ((Q.tab b).index = 0 ∨ P.alloc ≤ (Q.tab b).index) ∧ (r = true → l ≠ [] → (Q.tab b).index ≠ 0) ∧
      (r = true → Q.alloc = P.alloc + 4 * l.length) := by
  unfold Pool.makeTable at ho
  have hst := (TabStep.refl hP b).setTab { P.tab b with index := 0 }
  have hT : (P.setTab b { P.tab b with index := 0 }).tab b = { P.tab b with index := 0 } := setTab_tab _ _ _
  have hmx := h.max
  have h0 : TabOk (P.setTab b { P.tab b with index := 0 }) { P.tab b with index := 0 } l :=
    ⟨h.max, h.few, h.good, h.nodup, h.slow, h.some, fun hn => by
      rw [setTab_alloc, setTab_mem]; exact h.names hn, fun hi => absurd rfl hi⟩
  generalize hS : P.setTab b { P.tab b with index := 0 } = S at *
  simp only at ho
  rw [hT] at ho
  by_cases hneg : (P.tab b).maxId < 0
  · rw [if_pos hneg] at ho
    simp only [Out.pure_eq, Out.ok.injEq, Prod.mk.injEq] at ho
    obtain ⟨rfl, rfl⟩ := ho
    rw [hT]
    refine ⟨hst, h0, rfl, Or.inl rfl, fun _ hl => ?_, fun _ => ?_⟩
    · have := List.length_pos_iff.2 hl
      omega
    · rw [← hS, setTab_alloc]; omega
  · rw [if_neg hneg] at ho
    have hl : l ≠ [] := by rintro rfl; simp at hmx; omega
    have hn : (P.tab b).names ≠ 0 := h.some hl
    rw [if_neg hn] at ho
    obtain ⟨⟨S1, r1⟩, h1, ho⟩ := Out.bind_eq_ok ho
    obtain ⟨u1, u2, u3, u4⟩ := allocate_step hst.ok b h1
    have hS1 := hst.trans u1
    have hSalloc : S.alloc = P.alloc := by rw [← hS]; simp
    cases r1 with
    | none =>
      simp only [Out.pure_eq, Out.ok.injEq, Prod.mk.injEq] at ho
      obtain ⟨rfl, rfl⟩ := ho
      have := u3 rfl
      subst this
      rw [hT]
      exact ⟨hst, h0, rfl, Or.inl rfl, by simp, by simp⟩
    | some ix =>
      simp only at ho
      obtain ⟨o1, o2, o3, o4⟩ := u4 ix rfl
      have t1 : TabOk S1 (S1.tab b) l := by
        rw [u2, hT]
        exact h0.frame u1.mono fun i hi => u1.keep i (h0.lt hi).2
      rw [namesSize_ok hS1.ok t1, Out.ok_bind] at ho
      simp only [setTab_self] at ho
      have hmax : (S1.tab b).maxId = l.length - 1 := t1.max
      have hnn : (S1.tab b).names = (P.tab b).names := by rw [u2, hT]
      have hsz : (4 * ((P.tab b).maxId + 1)).toNat = 4 * l.length := by omega
      rw [hsz] at o3
      have haa : aa (4 * l.length) = 4 * l.length := aa_of_mod (by omega)
      rw [haa] at o3
      have hle : (S1.tab b).names ≠ 0 := by rw [hnn]; exact hn
      obtain ⟨n1, n2, n3, n4⟩ := t1.names hle
      have n3' := (h.names hn).2.2.1
      have hfew := h.few
      obtain ⟨R, q1, q2, q3, q4⟩ := indexLoop_ok (maxId := (S1.tab b).maxId) (ix := ix) (stop := (S1.tab b).names + symsLen l) l S1 (S1.tab b).names 0 hS1.ok (by rw [hS1.map]; exact hsm) n4 t1.noNul n2 rfl
        (by omega) (by omega) (by omega) (by omega)
      have hcount : ((S1.tab b).maxId + 1).toNat = l.length := by omega
      rw [hcount, q1, Out.ok_bind, if_pos rfl] at ho
      simp only [Out.pure_eq, Out.ok.injEq, Prod.mk.injEq] at ho
      obtain ⟨rfl, rfl⟩ := ho
      have hRt : ∀ c, R.tab c = S1.tab c := fun c => by rw [q2]; rfl
      have hhead := hP.head
      have hpos : 0 < poolHeader := by decide
      have hR : TabStep P R b := by
        refine ⟨?_, ?_, ?_, ?_, ?_, ?_, ?_⟩
        · rw [q2]; exact hS1.ok.mem _
        · rw [q2]; exact hS1.mono
        · rw [q2]; exact hS1.file
        · rw [q2]; exact hS1.map
        · rw [q2]; exact hS1.root
        · intro c hc; rw [hRt]; exact hS1.other c hc
        · intro i hi
          rw [q4 i (Or.inl (by omega))]
          exact hS1.keep i hi
      refine ⟨hR.setTab _, ?_, ?_, ?_, ?_, ?_⟩
      · rw [setTab_tab, hRt]
        refine ⟨t1.max, t1.few, t1.good, t1.nodup, t1.slow, t1.some, fun _ => ?_, fun _ => ⟨hle, ?_, ?_, ?_⟩⟩
        · rw [setTab_alloc, setTab_mem]
          refine ⟨n1, n2, by rw [q2]; exact n3, n4.congr fun i i1 i2 => q4 i (Or.inl ?_)⟩
          rw [encSyms_length] at i2
          skip
          omega
        · simp only; omega
        · rw [setTab_alloc, q2]; simp only; omega
        · rw [setTab_mem]; simpa using q3
      · rw [setTab_tab, hRt]; exact hnn
      · rw [setTab_tab]; right; simp only; omega
      · intro _ _; rw [setTab_tab]; simp only; omega
      · intro _; rw [setTab_alloc, q2]; simp only; omega

/-! ### reading by identification -/

theorem encIdx_get : ∀ (l : List Sym) (m : Mem) (p ix i : Nat), Has m ix (encIdx p l) → i < l.length → Has m (ix + 4 * i) (le32 (recAt p l i : Nat))
  | [], m, p, ix, i, h, hi => by simp at hi
  | s :: l, m, p, ix, 0, h, hi => by
    rw [encIdx, Has.append] at h
    have : recAt p (s :: l) 0 = p := by unfold recAt; simp [symsLen]
    rw [this]; exact h.1
  | s :: l, m, p, ix, i + 1, h, hi => by
    rw [encIdx, Has.append, le32_length] at h
    have := encIdx_get l m (p + recLen s) (ix + 4) i h.2 (by simpa using hi)
    have e1 : recAt p (s :: l) (i + 1) = recAt (p + recLen s) l i := by unfold recAt; simp [symsLen]; omega
    rw [e1, show ix + 4 * (i + 1) = ix + 4 + 4 * i by omega]; exact this

theorem encSyms_get : ∀ (l : List Sym) (m : Mem) (p k i : Nat) (hi : i < l.length), Has m p (encSyms k l) → Has m (recAt p l i) (encRec (k + i) l[i]) ∧ recAt p l i + recLen l[i] ≤ p + symsLen l
  | [], m, p, k, i, hi, h => by simp at hi
  | s :: l, m, p, k, 0, hi, h => by
    rw [encSyms, Has.append] at h
    have : recAt p (s :: l) 0 = p := by unfold recAt; simp [symsLen]
    rw [this]
    exact ⟨h.1, by rw [symsLen]; show p + recLen s ≤ _; omega⟩
  | s :: l, m, p, k, i + 1, hi, h => by
    rw [encSyms, Has.append, encRec_length] at h
    have := encSyms_get l m (p + recLen s) (k + 1) i (by simpa using hi) h.2
    have e1 : recAt p (s :: l) (i + 1) = recAt (p + recLen s) l i := by unfold recAt; simp [symsLen]; omega
    rw [e1, show k + (i + 1) = k + 1 + i by omega, symsLen]
    exact ⟨this.1, by have := this.2; simp only [List.getElem_cons_succ]; omega⟩

theorem indexed_ok {P : Pool} (hP : PoolOk P) (hsm : P.mmapSize < 2147483648) {T : Tab16} {l : List Sym} (h : TabOk P T l) (hi : T.index ≠ 0) {i : Nat} (hlt : i < l.length) :
    P.indexed T i = .ok (some (recAt T.names l i : Nat)) := by
  obtain ⟨i1, i2, i3, i4⟩ := h.index hi
  obtain ⟨n1, n2, n3, n4⟩ := h.names i1
  have hsz := hP.size
  have hmp := hP.map
  have hrec := encSyms_get l P.mem T.names 0 i hlt n4
  have hpos : 0 < poolHeader := by decide
  unfold Pool.indexed
  have hge : T.names ≤ recAt T.names l i := by unfold recAt; omega
  rw [Img.i32_ok (f := P.img) (encIdx_get l P.mem T.names T.index i i4 hlt) (by show _ ≤ P.fileSize; omega) (isI32_of_lt (by omega)) (T.index + 4 * i) (by omega), Out.ok_bind]
  simp only [Out.pure_eq]
  rw [if_neg (by omega)]

theorem symType_ok {P : Pool} (hP : PoolOk P) (hsm : P.mmapSize < 2147483648) {b : Bool} {l : List Sym} (h : TabOk P (P.tab b) l) (hi : (P.tab b).index ≠ 0) {i : Nat} (hlt : i < l.length) :
    P.symType b i = .ok (some l[i].type) := by
  have hx := indexed_ok hP hsm h hi hlt
  obtain ⟨i1, i2, i3, i4⟩ := h.index hi
  obtain ⟨n1, n2, n3, n4⟩ := h.names i1
  have hsz := hP.size
  have hfew := h.few
  have hrec := encSyms_get l P.mem (P.tab b).names 0 i hlt n4
  have hr := recAt_of (by omega) hrec.1
  have hlen := recLen_ge l[i]
  unfold Pool.symType
  rw [if_neg hi, if_neg (by omega), if_neg (by rw [h.max]; omega), hx, Out.ok_bind]
  unfold Pool.typeAt
  simp only
  rw [Img.u8_ok (f := P.img) hr.ty (by show _ ≤ P.fileSize; omega) _ (by omega), Out.ok_bind, ofCode_code]; rfl

theorem symName_ok {P : Pool} (hP : PoolOk P) (hsm : P.mmapSize < 2147483648) {b : Bool} {l : List Sym} (h : TabOk P (P.tab b) l) (hi : (P.tab b).index ≠ 0) {i : Nat} (hlt : i < l.length) :
    P.symName b i = .ok (some l[i].name) := by
  have hx := indexed_ok hP hsm h hi hlt
  obtain ⟨i1, i2, i3, i4⟩ := h.index hi
  obtain ⟨n1, n2, n3, n4⟩ := h.names i1
  have hsz := hP.size
  have hfew := h.few
  have hrec := encSyms_get l P.mem (P.tab b).names 0 i hlt n4
  have hr := recAt_of (by omega) hrec.1
  have hlen := recLen_ge l[i]
  unfold Pool.symName
  rw [if_neg (by rw [h.max]; omega), hx, Out.ok_bind]
  simp only
  rw [Img.str_ok (f := P.img) hr.nm (h.good _ (List.getElem_mem hlt)).2 (by show _ ≤ P.fileSize; omega) _ (by omega), Out.ok_bind]; rfl

/-- an identification that is not of a symbol -/
theorem sym_out {P : Pool} {b : Bool} {l : List Sym} (h : TabOk P (P.tab b) l) {id : Int} (hid : l.length ≤ id) : P.symName b id = .ok none ∧ P.symType b id = .ok (some UNKNOWN) := by
  have hm := h.max
  constructor
  · unfold Pool.symName; rw [if_pos (by omega)]; rfl
  · unfold Pool.symType
    by_cases hi : (P.tab b).index = 0
    · rw [if_pos hi]; rfl
    · rw [if_neg hi, if_neg (by omega), if_pos (by omega)]; rfl

theorem getName_ok {P : Pool} (hP : PoolOk P) (hsm : P.mmapSize < 2147483648) {T : Tab16} {l : List Sym} (h : TabOk P T l) {i : Nat} (hlt : i < l.length) : P.getName T i = .ok (some l[i].name) := by
  have hl : l ≠ [] := by rintro rfl; simp at hlt
  obtain ⟨n1, n2, n3, n4⟩ := h.names (h.some hl)
  have hsz := hP.size
  have hmp := hP.map
  have hfew := h.few
  have hrec := encSyms_get l P.mem T.names 0 i hlt n4
  have hr := recAt_of (by omega) hrec.1
  have hlen := recLen_ge l[i]
  have hm := h.max
  unfold Pool.getName Pool.recordOf
  rw [if_neg (by omega)]
  by_cases hi : T.index = 0
  · rw [if_pos hi]
    have hroom := h.room (h.some hl)
    have := byIdSeq_ok (f := P.img) (maxId := T.maxId) hP.size l T.names 0 (P.alloc + 4) i n4 h.noNul n2 n3 (by omega) (by omega) hlt (by omega)
    rw [Nat.zero_add] at this
    rw [show ((0 : Nat) : Int) = 0 from rfl] at this
    rw [this, Out.ok_bind]
    simp only
    rw [Img.str_ok (f := P.img) hr.nm (h.good _ (List.getElem_mem hlt)).2 (by show _ ≤ P.fileSize; omega) _ (by omega), Out.ok_bind]; rfl
  · rw [if_neg hi]
    obtain ⟨i1, i2, i3, i4⟩ := h.index hi
    rw [Img.i32_ok (f := P.img) (encIdx_get l P.mem T.names T.index i i4 hlt) (by show _ ≤ P.fileSize; omega) (isI32_of_lt (by omega)) (T.index + 4 * i) (by omega), Out.ok_bind, if_neg (by omega)]
    simp only [Out.pure_eq, Out.ok_bind, Int.toNat_natCast]
    rw [Img.str_ok (f := P.img) hr.nm (h.good _ (List.getElem_mem hlt)).2 (by show _ ≤ P.fileSize; omega) _ (by omega), Out.ok_bind]

end BX
