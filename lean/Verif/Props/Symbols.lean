import Verif.Lemmas.Symbols
import Verif.Spec.Symbols
/-
Property C25: symbol ids of the creator identify names.
-/
namespace BX
open XBT Spec

/-- names of a table in the order of their ids -/
def SymTab.names (t : SymTab) : List BStr := t.map Prod.fst

/-- invariant of the creator's tables -/
structure SymTab.Good (t : SymTab) : Prop where
  inc : Increasing t.names
  nonul : ∀ x ∈ t.names, NoNul x
  max : t.length ≤ MAX_SYMBOL_COUNT

theorem SymTab.name_eq (t : SymTab) (i : Nat) : t.name i = t.names.getD i [] := by
  unfold SymTab.name SymTab.names
  rw [List.getD_eq_getElem?_getD, List.getD_eq_getElem?_getD, List.getElem?_map]
  cases t[i]? <;> rfl

theorem SymTab.search_eq (t : SymTab) (s : BStr) :
    t.search s = bsearch (fun M => strcmpB s (t.names.getD M [])) 0 t.names.length := by
  unfold SymTab.search
  rw [show t.names.length = t.length from List.length_map ..]
  congr 1
  funext M
  rw [t.name_eq]

theorem Increasing.nodup {ns : List BStr} (h : Increasing ns) : ns.Nodup :=
  List.Pairwise.imp (fun {a b} hab => by rintro rfl; exact bytesLt_irrefl _ hab) h

theorem Increasing.inj {ns : List BStr} (h : Increasing ns) {i j : Nat} {s : BStr} (hi : ns[i]? = some s) (hj : ns[j]? = some s) : i = j := by
  obtain ⟨hi', rfl⟩ := List.getElem?_eq_some_iff.mp hi
  obtain ⟨hj', he⟩ := List.getElem?_eq_some_iff.mp hj
  rcases Nat.lt_trichotomy i j with hlt | rfl | hlt
  · have := h.lt hlt hj'; rw [he] at this; exact absurd this (bytesLt_irrefl _)
  · rfl
  · have := h.lt hlt hi'; rw [he] at this; exact absurd this (bytesLt_irrefl _)

/-- what the search in a good table finds -/
theorem SymTab.Good.search_spec {t : SymTab} (h : t.Good) {s : BStr} (hs : NoNul s) :
    (∃ M, t.search s = .hit M ∧ t.names[M]? = some s) ∨
    (∃ P, t.search s = .miss P ∧ s ∉ t.names ∧ P ≤ t.length ∧ (∀ x ∈ t.names.take P, BytesLt x s) ∧ ∀ x ∈ t.names.drop P, BytesLt s x) := by
  have := search_names t.names h.inc h.nonul s hs
  rw [← t.search_eq] at this
  cases hc : t.search s with
  | hit M => rw [hc] at this; exact Or.inl ⟨M, rfl, this⟩
  | miss P =>
    rw [hc] at this
    obtain ⟨h1, h2, h3⟩ := this
    refine Or.inr ⟨P, rfl, ?_, by simpa [SymTab.names] using h1, h2, h3⟩
    intro hm
    rw [← List.take_append_drop P t.names, List.mem_append] at hm
    rcases hm with hm | hm
    · exact bytesLt_irrefl _ (h2 s hm)
    · exact bytesLt_irrefl _ (h3 s hm)

theorem SymTab.names_set (t : SymTab) (M : Nat) (ty : XBT) : SymTab.names (t.set M (t.name M, ty)) = t.names := by
  unfold SymTab.names
  rw [List.map_set]
  apply List.ext_getElem?
  intro i
  rw [List.getElem?_set]
  split
  · next h =>
    subst h
    split
    · next h => rw [t.name_eq, SymTab.names, List.getD_eq_getElem?_getD, List.getElem?_eq_getElem h]; rfl
    · next h => rw [List.getElem?_eq_none (by omega)]
  · rfl

theorem SymTab.names_insert (t : SymTab) (P : Nat) (s : BStr) (ty : XBT) :
    SymTab.names (t.take P ++ (s, ty) :: t.drop P) = t.names.take P ++ s :: t.names.drop P := by
  simp [SymTab.names]

theorem SymTab.Good.insert {t : SymTab} (h : t.Good) {s : BStr} (hs : NoNul s) {P : Nat} (ty : XBT)
    (h2 : ∀ x ∈ t.names.take P, BytesLt x s) (h3 : ∀ x ∈ t.names.drop P, BytesLt s x) (hl : t.length < MAX_SYMBOL_COUNT) :
    SymTab.Good (t.take P ++ (s, ty) :: t.drop P) := by
  constructor
  · rw [SymTab.names_insert]
    unfold Increasing
    have hp := h.inc
    unfold Increasing at hp
    rw [← List.take_append_drop P t.names, List.pairwise_append] at hp
    rw [List.pairwise_append, List.pairwise_cons]
    refine ⟨hp.1, ⟨h3, hp.2.1⟩, ?_⟩
    intro a ha b hb
    rcases List.mem_cons.mp hb with rfl | hb
    · exact h2 a ha
    · exact hp.2.2 a ha b hb
  · rw [SymTab.names_insert]
    intro x hx
    rw [List.mem_append, List.mem_cons] at hx
    rcases hx with hx | rfl | hx
    · exact h.nonul x (List.mem_of_mem_take hx)
    · exact hs
    · exact h.nonul x (List.mem_of_mem_drop hx)
  · have : (t.take P ++ (s, ty) :: t.drop P).length = t.length + 1 := by
      simp only [List.length_append, List.length_take, List.length_cons, List.length_drop]; omega
    omega

theorem SymTab.Good.reg {t : SymTab} (h : t.Good) {s : BStr} (hs : NoNul s) (upd : XBT → XBT) (ini : XBT) :
    (t.reg (some s) upd ini).2.Good := by
  unfold SymTab.reg
  rcases h.search_spec hs with ⟨M, hM, -⟩ | ⟨P, hP, -, -, h2, h3⟩
  · simp only [hM]
    exact ⟨by rw [t.names_set]; exact h.inc, by rw [t.names_set]; exact h.nonul, by simpa using h.max⟩
  · simp only [hP]
    split
    · exact h
    · exact h.insert hs ini h2 h3 (by omega)

theorem RegOp.run_eq (t : SymTab) (op : RegOp) : ∃ upd ini, op.run t = t.reg (some op.name) upd ini := by
  cases op with
  | typed n ty => exact ⟨_, _, rfl⟩
  | text n v => exact ⟨_, _, rfl⟩

theorem regAll_good (ops : List RegOp) (hn : ∀ op ∈ ops, NoNul op.name) : (regAll ops).Good := by
  suffices H : ∀ (ops : List RegOp) (t : SymTab), t.Good → (∀ op ∈ ops, NoNul op.name) → (ops.foldl (fun t op => (op.run t).2) t).Good by
    exact H ops [] ⟨List.Pairwise.nil, by simp [SymTab.names], by simp [MAX_SYMBOL_COUNT]⟩ hn
  intro ops
  induction ops with
  | nil => intro t ht _; exact ht
  | cons op ops ih =>
    intro t ht hn
    apply ih _ _ (fun o ho => hn o (by simp [ho]))
    show (op.run t).2.Good
    obtain ⟨upd, ini, he⟩ := op.run_eq t
    rw [he]
    exact ht.reg (hn op (by simp)) upd ini

theorem SymTab.Good.find_iff {t : SymTab} (h : t.Good) {s : BStr} (hs : NoNul s) (he : s ≠ etTecera) (i : Nat) :
    t.find (some s) = (i : Int) ↔ t.names[i]? = some s := by
  unfold SymTab.find
  simp only [if_neg he]
  rcases h.search_spec hs with ⟨M, hM, hn⟩ | ⟨P, hP, hn, -⟩
  · simp only [hM]
    constructor
    · intro h'; have : M = i := by omega
      subst this; exact hn
    · intro h'; have := h.inc.inj hn h'; omega
  · simp only [hP]
    constructor
    · intro h'; omega
    · intro h'; exact absurd (List.mem_of_getElem? h') hn

theorem SymTab.Good.find_absent {t : SymTab} (h : t.Good) {s : BStr} (hs : NoNul s) (he : s ≠ etTecera) :
    t.find (some s) = -1 ↔ s ∉ t.names := by
  unfold SymTab.find
  simp only [if_neg he]
  rcases h.search_spec hs with ⟨M, hM, hn⟩ | ⟨P, hP, hn, -⟩
  · simp only [hM]
    constructor
    · intro h'; omega
    · intro h'; exact absurd (List.mem_of_getElem? hn) h'
  · simp only [hP, true_iff]; exact hn

/-- C25, first half: after any registrations the ids are `0..count-1` in strictly increasing order of names, there are at most
32768 of them, and looking a name up gives `i` exactly when it is the `i`-th name, and -1 exactly when it is in no place.
The name `et-tecera` is reserved: looking it up always gives the reserved id -9. -/
theorem C25_ids (ops : List RegOp) (hn : ∀ op ∈ ops, NoNul op.name) :
    (regAll ops).length ≤ 32768 ∧
    (∀ i j (hi : i < j) (hj : j < (regAll ops).length), BytesLt ((regAll ops)[i]).1 ((regAll ops)[j]).1) ∧
    (∀ s, NoNul s → s ≠ b8 "et-tecera" →
      (∀ i : Nat, (regAll ops).find (some s) = i ↔ (regAll ops)[i]?.map Prod.fst = some s) ∧
      ((regAll ops).find (some s) = -1 ↔ ∀ e ∈ regAll ops, e.1 ≠ s)) ∧
    (regAll ops).find (some (b8 "et-tecera")) = -9 ∧ (regAll ops).find none = -1 := by
  have h := regAll_good ops hn
  refine ⟨h.max, ?_, ?_, ?_, rfl⟩
  · intro i j hij hj
    have := h.inc.lt (i := i) (j := j) hij (by simpa [SymTab.names] using hj)
    simpa [SymTab.names] using this
  · intro s hs he
    refine ⟨fun i => ?_, ?_⟩
    · rw [h.find_iff hs he, SymTab.names, List.getElem?_map]
    · rw [h.find_absent hs he, SymTab.names]
      simp only [List.mem_map, not_exists, not_and]
  · simp [SymTab.find, etTecera]

/-- C25: distinct names in the table have distinct ids. -/
theorem C25_distinct (ops : List RegOp) (hn : ∀ op ∈ ops, NoNul op.name) (a b : BStr) (ha : NoNul a) (hb : NoNul b)
    (hna : (regAll ops).find (some a) ≠ -1) (hab : (regAll ops).find (some a) = (regAll ops).find (some b)) : a = b := by
  have h := regAll_good ops hn
  have cases_ : ∀ s, NoNul s → s ≠ etTecera → (regAll ops).find (some s) ≠ -1 → ∃ i : Nat, (regAll ops).find (some s) = i ∧ (regAll ops).names[i]? = some s := by
    intro s hs he h1
    have := mt (h.find_absent hs he).mpr h1
    obtain ⟨i, hi⟩ := List.mem_iff_getElem?.mp (Classical.not_not.mp this)
    exact ⟨i, (h.find_iff hs he i).mpr hi, hi⟩
  have het : (regAll ops).find (some etTecera) = -9 := by simp [SymTab.find]
  by_cases ea : a = etTecera
  · by_cases eb : b = etTecera
    · rw [ea, eb]
    · exfalso
      subst ea
      obtain ⟨i, hi, -⟩ := cases_ b hb eb (by rw [← hab]; exact hna)
      rw [het, hi] at hab; omega
  · obtain ⟨i, hi, hi'⟩ := cases_ a ha ea hna
    by_cases eb : b = etTecera
    · subst eb; exfalso; rw [het, hi] at hab; omega
    · obtain ⟨j, hj, hj'⟩ := cases_ b hb eb (by rw [← hab]; exact hna)
      have : i = j := by omega
      subst this
      rw [hi'] at hj'; exact Option.some.inj hj'

theorem regAll_snoc (ops : List RegOp) (op : RegOp) : regAll (ops ++ [op]) = (op.run (regAll ops)).2 := by
  simp [regAll]

theorem snocInd {α : Type} (p : List α → Prop) (h0 : p []) (h1 : ∀ l a, p l → p (l ++ [a])) : ∀ l, p l := by
  intro l
  rw [← l.reverse_reverse]
  induction l.reverse with
  | nil => exact h0
  | cons a l ih => rw [List.reverse_cons]; exact h1 _ _ ih

/-- registering never removes a name, adds nothing else than the new name -/
theorem SymTab.Good.reg_mem {t : SymTab} (h : t.Good) {s : BStr} (hs : NoNul s) (upd : XBT → XBT) (ini : XBT) (x : BStr) :
    x ∈ (t.reg (some s) upd ini).2.names ↔ x ∈ t.names ∨ (x = s ∧ (t.length < MAX_SYMBOL_COUNT ∨ s ∈ t.names)) := by
  unfold SymTab.reg
  rcases h.search_spec hs with ⟨M, hM, hn⟩ | ⟨P, hP, hn, -⟩
  · simp only [hM, t.names_set]
    have := List.mem_of_getElem? hn
    constructor
    · exact Or.inl
    · rintro (h | ⟨rfl, _⟩)
      · exact h
      · exact this
  · simp only [hP]
    split
    · next hf =>
      constructor
      · exact Or.inl
      · rintro (h | ⟨rfl, h | h⟩)
        · exact h
        · omega
        · exact h
    · next hf =>
      rw [SymTab.names_insert, List.mem_append, List.mem_cons]
      have : x ∈ t.names ↔ x ∈ t.names.take P ∨ x ∈ t.names.drop P := by
        rw [← List.mem_append, List.take_append_drop]
      rw [this]
      constructor
      · rintro (h | rfl | h)
        · exact Or.inl (Or.inl h)
        · exact Or.inr ⟨rfl, Or.inl (by omega)⟩
        · exact Or.inl (Or.inr h)
      · rintro ((h | h) | ⟨rfl, _⟩)
        · exact Or.inl h
        · exact Or.inr (Or.inr h)
        · exact Or.inr (Or.inl rfl)

/-- C25: as long as at most 32768 different names are registered, the table contains exactly the registered names. -/
theorem C25_members (ops : List RegOp) (hn : ∀ op ∈ ops, NoNul op.name) (hmax : AtMost 32768 ops) (s : BStr) :
    (∃ e ∈ regAll ops, e.1 = s) ↔ ∃ op ∈ ops, op.name = s := by
  suffices H : ∀ ops : List RegOp, (∀ op ∈ ops, NoNul op.name) → AtMost 32768 ops → ∀ s, s ∈ (regAll ops).names ↔ ∃ op ∈ ops, op.name = s by
    rw [← H ops hn hmax s]; simp [SymTab.names]
  refine snocInd _ ?_ ?_
  · intro _ _ s; simp [regAll, SymTab.names]
  · intro ops op ih hn hmax s
    have hn' : ∀ o ∈ ops, NoNul o.name := fun o ho => hn o (by simp [ho])
    have hmax' : AtMost 32768 ops := fun l h1 h2 => hmax l h1 (fun s hs => by
      obtain ⟨o, ho, he⟩ := h2 s hs; exact ⟨o, by simp [ho], he⟩)
    have ih := ih hn' hmax'
    have hg := regAll_good ops hn'
    rw [regAll_snoc]
    obtain ⟨upd, ini, he⟩ := op.run_eq (regAll ops)
    rw [he, hg.reg_mem (hn op (by simp)), ih s]
    constructor
    · rintro (⟨o, ho, h⟩ | ⟨rfl, -⟩)
      · exact ⟨o, by simp [ho], h⟩
      · exact ⟨op, by simp, rfl⟩
    · rintro ⟨o, ho, h⟩
      rcases List.mem_append.mp ho with ho | ho
      · exact Or.inl ⟨o, ho, h⟩
      · simp only [List.mem_singleton] at ho
        subst ho
        refine Or.inr ⟨h.symm, ?_⟩
        by_cases hin : o.name ∈ (regAll ops).names
        · exact Or.inr hin
        · left
          have hlen := hmax (o.name :: (regAll ops).names) (List.nodup_cons.mpr ⟨hin, hg.inc.nodup⟩) (by
            intro x hx
            rcases List.mem_cons.mp hx with rfl | hx
            · exact ⟨o, by simp, rfl⟩
            · obtain ⟨o', ho', h'⟩ := (ih x).mp hx; exact ⟨o', by simp [ho'], h'⟩)
          simp only [SymTab.names, List.length_cons, List.length_map] at hlen
          unfold MAX_SYMBOL_COUNT; omega

/-- C25: the id a registration returns is the id by which the name is then found; -1 is returned only for a new name when
all 32768 ids are taken, and then nothing changes. -/
theorem C25_returned (ops : List RegOp) (hn : ∀ op ∈ ops, NoNul op.name) (op : RegOp) (hop : NoNul op.name) :
    ((op.run (regAll ops)).1 = -1 ∧ (regAll ops).length = 32768 ∧ (∀ e ∈ regAll ops, e.1 ≠ op.name) ∧ (op.run (regAll ops)).2 = regAll ops) ∨
    (∃ i : Nat, (op.run (regAll ops)).1 = i ∧ ((op.run (regAll ops)).2)[i]?.map Prod.fst = some op.name) := by
  have h := regAll_good ops hn
  generalize regAll ops = t at h
  obtain ⟨upd, ini, he⟩ := op.run_eq t
  rw [he]
  unfold SymTab.reg
  rcases h.search_spec hop with ⟨M, hM, hn⟩ | ⟨P, hP, hn, hle, -⟩
  · simp only [hM]
    right
    refine ⟨M, rfl, ?_⟩
    rw [← List.getElem?_map]
    have := t.names_set M (upd (t.type M))
    unfold SymTab.names at this
    rw [this]; exact hn
  · simp only [hP]
    split
    · next hf =>
      left
      refine ⟨rfl, ?_, ?_, rfl⟩
      · have := h.max; unfold MAX_SYMBOL_COUNT at *; omega
      · intro e he h'; apply hn; rw [← h']; exact List.mem_map_of_mem he
    · right
      refine ⟨P, rfl, ?_⟩
      rw [List.getElem?_append_right (by simp only [List.length_take]; omega)]
      simp [Nat.min_eq_left hle]

example : ∃ ops : List RegOp, ops.length = 3 ∧ (∀ op ∈ ops, NoNul op.name) ∧
    regAll ops = [(b8 "a", XBT.INT32), (b8 "b", XBT.STRING)] ∧ (regAll ops).find (some (b8 "b")) = 1 ∧ (regAll ops).find (some (b8 "c")) = -1 :=
  ⟨[.text (b8 "b") (some "hello".toList), .typed (b8 "a") .INT32, .text (b8 "b") (some "5".toList)], by decide +kernel⟩

/-! ### types of the symbols -/

theorem typeAfter_snoc (ops : List RegOp) (op : RegOp) :
    typeAfter (ops ++ [op]) = some (match typeAfter ops, op with
      | none, .typed _ ty => ty
      | none, .text _ v => detect (v.getD [])
      | some old, .typed _ ty => joinTypes ty old
      | some old, .text _ v => detect2 (v.getD []) old) := by
  unfold typeAfter
  rw [List.foldl_append]
  generalize List.foldl _ none ops = acc
  cases acc <;> cases op <;> rfl

/-- registrations of one name -/
def ofName (s : BStr) (ops : List RegOp) : List RegOp := ops.filter (fun op => op.name == s)

theorem ofName_snoc (s : BStr) (ops : List RegOp) (op : RegOp) :
    ofName s (ops ++ [op]) = if op.name = s then ofName s ops ++ [op] else ofName s ops := by
  unfold ofName
  rw [List.filter_append]
  by_cases h : op.name = s
  · simp [h]
  · simp [h]

/-- C25: the type recorded for a name is the one its own registrations give, whatever else was registered before, between
and after them. -/
theorem C25_types (ops : List RegOp) (hn : ∀ op ∈ ops, NoNul op.name) :
    ∀ e ∈ regAll ops, typeAfter (ops.filter (fun op => op.name == e.1)) = some e.2 := by
  suffices H : ∀ ops : List RegOp, (∀ op ∈ ops, NoNul op.name) →
      (∀ e ∈ regAll ops, typeAfter (ofName e.1 ops) = some e.2) ∧
      ((regAll ops).length < MAX_SYMBOL_COUNT → ∀ op ∈ ops, op.name ∈ (regAll ops).names) from (H ops hn).1
  refine snocInd _ ?_ ?_
  · intro _; exact ⟨by simp [regAll], by simp⟩
  · intro ops op ih hn
    have hn' : ∀ o ∈ ops, NoNul o.name := fun o ho => hn o (by simp [ho])
    obtain ⟨ih1, ih2⟩ := ih hn'
    have hg := regAll_good ops hn'
    rw [regAll_snoc]
    generalize regAll ops = t at ih1 ih2 hg
    have hop := hn op (by simp)
    -- the new entry of `op.name` has the right type
    have hrun : ∃ upd ini, op.run t = t.reg (some op.name) upd ini ∧
        (∀ old, typeAfter (ofName op.name ops) = some old → typeAfter (ofName op.name ops ++ [op]) = some (upd old)) ∧
        (typeAfter (ofName op.name ops) = none → typeAfter (ofName op.name ops ++ [op]) = some ini) := by
      cases op with
      | typed n ty => exact ⟨_, _, rfl, fun old h => by rw [typeAfter_snoc, h], fun h => by rw [typeAfter_snoc, h]⟩
      | text n v => exact ⟨_, _, rfl, fun old h => by rw [typeAfter_snoc, h], fun h => by rw [typeAfter_snoc, h]⟩
    obtain ⟨upd, ini, he, hu, hi⟩ := hrun
    rw [he]
    unfold SymTab.reg
    rcases hg.search_spec hop with ⟨M, hM, hnm⟩ | ⟨P, hP, hnm, hle, h2, h3⟩
    · simp only [hM]
      have hMl : M < t.length := by
        have := (List.getElem?_eq_some_iff.mp hnm).1; simpa [SymTab.names] using this
      have hname : t[M].1 = op.name := by
        have := (List.getElem?_eq_some_iff.mp hnm).2; simpa [SymTab.names] using this
      constructor
      · intro e he
        rw [ofName_snoc]
        obtain ⟨i, hi', rfl⟩ := List.mem_iff_getElem.mp he
        rw [List.getElem_set]
        split
        · next h =>
          subst h
          have hnameM : t.name M = op.name := by
            rw [SymTab.name, List.getD_eq_getElem?_getD, List.getElem?_eq_getElem hMl]; exact hname
          have htypeM : t.type M = t[M].2 := by
            rw [SymTab.type, List.getD_eq_getElem?_getD, List.getElem?_eq_getElem hMl]; rfl
          rw [hnameM, if_pos rfl]
          apply hu
          rw [htypeM, ← hname]
          exact ih1 _ (List.getElem_mem hMl)
        · next h =>
          have hil : i < t.length := by simpa using hi'
          rw [if_neg]
          · exact ih1 _ (List.getElem_mem hil)
          · intro hc
            apply h
            apply hg.inc.inj hnm
            rw [SymTab.names, List.getElem?_map, List.getElem?_eq_getElem hil, hc]; rfl
      · intro hl o ho
        rw [t.names_set]
        rcases List.mem_append.mp ho with ho | ho
        · exact ih2 (by simpa using hl) o ho
        · simp only [List.mem_singleton] at ho; subst ho; exact List.mem_of_getElem? hnm
    · simp only [hP]
      split
      · next hf =>
        constructor
        · intro e he
          rw [ofName_snoc, if_neg]
          · exact ih1 e he
          · intro hc; apply hnm; rw [hc]; exact List.mem_map_of_mem he
        · intro hl; dsimp only at hl; omega
      · next hf =>
        constructor
        · intro e he
          have he : e = (op.name, ini) ∨ e ∈ t := by
            have h := he
            simp only [List.mem_append, List.mem_cons] at h
            rcases h with h | h | h
            · exact Or.inr (List.mem_of_mem_take h)
            · exact Or.inl h
            · exact Or.inr (List.mem_of_mem_drop h)
          rw [ofName_snoc]
          rcases he with rfl | he
          · rw [if_pos rfl]
            apply hi
            have : ofName op.name ops = [] := by
              unfold ofName
              rw [List.filter_eq_nil_iff]
              intro o ho hc
              apply hnm
              rw [← beq_iff_eq.mp hc]
              exact ih2 (by omega) o ho
            rw [this]; rfl
          · rw [if_neg]
            · exact ih1 e he
            · intro hc; apply hnm; rw [hc]; exact List.mem_map_of_mem he
        · intro hl o ho
          rw [SymTab.names_insert, List.mem_append, List.mem_cons]
          rcases List.mem_append.mp ho with ho | ho
          · have := ih2 (by omega) o ho
            rw [← List.take_append_drop P t.names, List.mem_append] at this
            rcases this with h | h
            · exact Or.inl h
            · exact Or.inr (Or.inr h)
          · simp only [List.mem_singleton] at ho; subst ho; exact Or.inr (Or.inl rfl)

/-- instance: the type of `b` is the join of its two values' types although `a` was registered in between -/
example : typeAfter ([RegOp.text (b8 "b") (some "hello".toList), .typed (b8 "a") .INT32, .text (b8 "b") (some "5".toList)].filter
    (fun op => op.name == b8 "b")) = some XBT.STRING := by decide +kernel

end BX
