import Verif.Lemmas.Source
import Verif.Props.Store
/-
A writable document as the source of a file.
-/
namespace BX
open XBT Spec

theorem cPrefix_longer {v : List UInt8} (h : (0 : UInt8) ∈ v) (l : List UInt8) : cPrefix (v ++ l) = cPrefix v := by
  obtain ⟨m, hm⟩ := cPrefix_mem h
  have hn := cPrefix_noNul v
  rw [hm, List.append_assoc]
  generalize cPrefix v = w at *
  rw [List.cons_append]
  have : ∀ r, cPrefix (w ++ 0 :: r) = w := by
    intro r
    unfold cPrefix
    rw [List.takeWhile_append_of_pos (by intro a ha; simpa using hn a ha), List.takeWhile_cons, if_neg (by simp), List.append_nil]
  rw [this, this]

/-- a good value has none of the types that cannot be stored -/
theorem good_types {t : XBT} {v : List UInt8} (hg : GoodVal t v) : t ≠ VARIANT ∧ t ≠ UNKNOWN ∧ t ≠ LAST ∧ t ≠ UNIX_DATE := by
  refine ⟨?_, ?_, ?_, ?_⟩ <;> rintro rfl <;> simp [GoodVal, is4, isINT32, fixedSize] at hg <;> omega

/-- the bytes of a good value are the same whatever follows it -/
theorem binData_good {t : XBT} {v : List UInt8} (hg : GoodVal t v) (l : List UInt8) : binData t (v ++ l) = ⟨t, readable t v⟩ := by
  by_cases h1 : t = STRING
  · subst h1
    have := cPrefix_longer (show (0 : UInt8) ∈ v from hg) l
    simp only [binData, if_neg (show STRING ≠ NULL by decide), if_pos, this]
    rfl
  · by_cases hvz : isVarsize t = true
    · have : readable t v = v ∧ t ≠ NULL ∧ ∃ bs, v = le32 (bs.length : Int) ++ bs ∧ bs.length + 4 < 2147483648 := by
        cases t <;> first | (exact absurd hvz (by decide)) | exact ⟨rfl, by decide, hg⟩
      obtain ⟨g1, g0, bs, g2, g3⟩ := this
      unfold binData
      rw [if_neg g0, if_neg h1, if_pos hvz, g1, g2, List.append_assoc, rdI32_le32 _ _ (isI32_of_lt (by omega)), ← List.append_assoc]
      rw [List.take_append_of_le_length (by simp), List.take_of_length_le (by simp)]
    · by_cases hsh : t = SHA1
      · subst hsh
        have : 20 ≤ v.length := hg
        simp only [binData, readable, isVarsize, is4, is8, isINT32]
        simp [List.take_append_of_le_length this]
      · cases t <;> first | (exact absurd rfl h1) | (exact absurd rfl hsh) | (exact absurd (by decide) hvz) |
          (exact absurd rfl (good_types hg).1) | (exact absurd rfl (good_types hg).2.1) | (exact absurd rfl (good_types hg).2.2.1) | (exact absurd rfl (good_types hg).2.2.2) |
          (have hl : v.length = 4 := by simpa [GoodVal, is4, isINT32] using hg
           simp [binData, readable, isVarsize, is4, is8, isINT32, ← hl]) |
          (have hl : (v.length : Int) = 8 := by simpa [GoodVal, is4, isINT32, fixedSize] using hg
           have hl : v.length = 8 := by omega
           simp [binData, readable, isVarsize, is4, is8, isINT32, ← hl]) |
          (have hl : (v.length : Int) = 16 := by simpa [GoodVal, is4, isINT32, fixedSize] using hg
           have hl : v.length = 16 := by omega
           simp [binData, readable, isVarsize, is4, is8, isINT32, ← hl]) |
          (have hl : (v.length : Int) = 0 := by simpa [GoodVal, is4, isINT32, fixedSize] using hg
           have hl : v = [] := List.length_eq_zero_iff.1 (by omega)
           subst hl
           simp [binData, readable])

theorem good_size {t : XBT} {v : List UInt8} (hg : GoodVal t v) (l : List UInt8) (hv : isVarsize t = true) : rdI32 (v ++ l) = (v.length : Int) - 4 ∧ 4 ≤ v.length := by
  have : ∃ bs, v = le32 (bs.length : Int) ++ bs ∧ bs.length + 4 < 2147483648 := by
    cases t <;> first | (exact absurd hv (by decide)) | exact hg
  obtain ⟨bs, g2, g3⟩ := this
  rw [g2, List.append_assoc, rdI32_le32 _ _ (isI32_of_lt (by omega))]
  simp; omega

/-- the size that is reported with a value -/
def valueSize (t : XBT) (v : List UInt8) : Int :=
  if t = BLOB ∨ t = HEX then (v.length : Int) - 4 else if t = STRING then ((cPrefix v).length : Int) else 0

theorem nodeBinValue_spec {P : Pool} {D : Doc} {els V fl} (k : Keeps P D els V fl) {e : Nat} (he : e ∈ els) (hg : GoodVal (D.type e) (D.val e)) :
    P.nodeBinValue e = .ok (D.type e, valueSize (D.type e) (D.val e), if D.type e = NULL then none else some (P.dataOf e)) := by
  have hv := k.elem e he
  have hsz := k.sees.size
  have hhi := hv.hi
  unfold Pool.nodeBinValue valueSize
  rw [elemType_spec k he, Out.ok_bind]
  by_cases h1 : D.type e = BLOB ∨ D.type e = HEX
  · rw [if_pos h1, if_pos h1]
    have hne : D.type e ≠ NULL := by rcases h1 with h | h <;> rw [h] <;> decide
    have : ∃ bs, D.val e = le32 (bs.length : Int) ++ bs ∧ bs.length + 4 < 2147483648 := by
      rcases h1 with h | h <;> rw [h] at hg <;> exact hg
    obtain ⟨bs, g2, g3⟩ := this
    have hval := hv.val
    have hln : (D.val e).length = 4 + bs.length := by rw [g2]; simp
    rw [g2, Has.append] at hval
    rw [Img.i32_ok (f := P.img) hval.1 (by show _ ≤ P.fileSize; omega) (isI32_of_lt (by omega)) _ (by omega), Out.ok_bind, if_neg hne, hln]
    simp only [Out.pure_eq, Out.ok.injEq, Prod.mk.injEq, true_and, and_true]
    omega
  · rw [if_neg h1, if_neg h1]
    by_cases h2 : D.type e = STRING
    · rw [if_pos h2, if_pos h2, if_neg (by rw [h2]; decide)]
      rw [h2] at hg
      obtain ⟨l, hl⟩ := cPrefix_mem (show (0 : UInt8) ∈ D.val e from hg)
      have hval := hv.val
      rw [hl, show cPrefix (D.val e) ++ 0 :: l = (cPrefix (D.val e) ++ [0]) ++ l by simp, Has.append] at hval
      have hlen := congrArg List.length hl
      simp only [List.length_append, List.length_cons] at hlen
      rw [Img.str_ok (f := P.img) hval.1 (cPrefix_noNul _) (by show _ ≤ P.fileSize; omega) _ (by omega), Out.ok_bind]
      rfl
    · rw [if_neg h2, if_neg h2]
      by_cases h3 : D.type e = NULL
      · rw [if_pos h3, if_pos h3]; rfl
      · rw [if_neg h3, if_neg h3]; rfl

/-- the attribute as the creator gets it -/
def srcAttr (P : Pool) (D : Doc) (a : Nat) : BStr × SVal := ((D.nameOf false (D.id a)).getD [], .bin (D.type a) (P.dataOf a))

mutual
/-- the tree as the creator gets it -/
def srcElem (P : Pool) (D : Doc) : ETree → Elem
  | .node e ks => .mk ((D.nameOf true (D.id e)).getD []) (if D.type e = NULL then .none else .bin (D.type e) (P.dataOf e)) ((D.forest.at' (.attrs e)).map (srcAttr P D)) (srcElems P D ks)
def srcElems (P : Pool) (D : Doc) : List ETree → List Elem
  | [] => []
  | k :: ks => srcElem P D k :: srcElems P D ks
end

theorem typed_name {D : Doc} {b : Bool} {id : Int} (h : D.typed b id) : ∃ s, (D.syms b)[id.toNat]? = some s ∧ s ∈ D.syms b ∧ s.type ≠ UNKNOWN ∧ D.nameOf b id = some s.name := by
  obtain ⟨h0, s, h1, h2⟩ := h
  refine ⟨s, h1, List.mem_of_getElem? h1, h2, ?_⟩
  unfold Doc.nameOf
  rw [if_neg (by omega), h1]; rfl

theorem typed_syms {D : Doc} {b : Bool} {id : Int} (h : D.typed b id) : D.syms b ≠ [] := by
  obtain ⟨s, -, h2, -⟩ := typed_name h
  exact List.ne_nil_of_mem h2

/-- the name of a stored element -/
theorem stored_name {D : Doc} {id : Int} (h : D.typed true id ∨ id = -9 ∧ D.syms true ≠ []) : ∃ n, D.nameOf true id = some n ∧ (n = b8 "et-tecera" ∨ ∃ s ∈ D.syms true, s.type ≠ UNKNOWN ∧ n = s.name) := by
  rcases h with h | ⟨rfl, -⟩
  · obtain ⟨s, -, h1, h2, h3⟩ := typed_name h
    exact ⟨_, h3, Or.inr ⟨s, h1, h2, rfl⟩⟩
  · exact ⟨_, rfl, Or.inl rfl⟩

theorem stored_syms {D : Doc} {id : Int} (h : D.typed true id ∨ id = -9 ∧ D.syms true ≠ []) : D.syms true ≠ [] := by
  rcases h with h | h
  · exact typed_syms h
  · exact h.2

theorem srcParams_spec {P : Pool} {D : Doc} : ∀ l : List Nat, (∀ a ∈ l, D.typed false (D.id a)) →
    srcParams (l.map fun a => (D.nameOf false (D.id a), D.id a, D.type a, P.dataOf a)) = .ok (l.map (srcAttr P D))
  | [], _ => rfl
  | a :: l, h => by
    obtain ⟨s, -, -, -, hs⟩ := typed_name (h a (by simp))
    have ih := srcParams_spec (P := P) l (fun x hx => h x (List.mem_cons_of_mem _ hx))
    simp only [List.map_cons, srcParams, hs, srcParam, Out.pure_eq, Out.ok_bind, ih]
    simp only [srcAttr, hs, Option.getD_some]

mutual
theorem source_spec {P : Pool} {D : Doc} {els V fl} (k : Keeps P D els V fl) (hr : ∀ b, D.ready b = true) : ∀ (T : ETree) (fuel : Nat), D.Below T → T.top ∈ els → D.Every D.storedElem D.storedAttr T →
    D.steps T ≤ fuel → P.source fuel T.top = .ok (srcElem P D T)
  | .node e ks, fuel, hb, he, hq, hf => by
    unfold Doc.steps at hf
    unfold Doc.Below at hb
    unfold Doc.Every at hq
    obtain ⟨n, rfl⟩ : ∃ n, fuel = n + 1 := ⟨fuel - 1, by omega⟩
    have he : e ∈ els := he
    obtain ⟨⟨q1, q2, q3, q4⟩, q5, q6⟩ := hq
    obtain ⟨s, hs, -⟩ := stored_name q2
    have hlk : (D.forest.at' (.kids e)).length = ks.length := by rw [hb.1, tops_length]
    have hps : P.binParams e n = .ok ((D.forest.at' (.attrs e)).map fun a => (D.nameOf false (D.id a), D.id a, D.type a, P.dataOf a)) := by
      unfold Pool.binParams
      rw [visit_spec k.sees k.lists he (Or.inr rfl) (by show (D.forest.at' (.attrs e)).length < n; omega), Out.ok_bind]
      show P.binParamsOf ((D.forest.at' (.attrs e)).map Int.ofNat) = _
      cases hl : D.forest.at' (.attrs e) with
      | nil => rfl
      | cons a l =>
        rw [← hl]
        have ha := q5 a (by rw [hl]; simp)
        exact binParamsOf_spec k (hr false) (typed_syms ha.1) _ (fun x hx => (k.lists.mem x).1 ⟨_, hx⟩)
    show P.source (n + 1) e = _
    unfold Pool.source
    rw [nodeName_spec k he (hr _) (by rw [q1]; exact stored_syms q2), Out.ok_bind, q1, hs]
    simp only
    rw [nodeBinValue_spec k he q3, Out.ok_bind, hps, Out.ok_bind, srcParams_spec _ (fun a ha => (q5 a ha).1), Out.ok_bind,
      visit_spec k.sees k.lists he (Or.inl rfl) (by show (D.forest.at' (.kids e)).length < n; omega), Out.ok_bind]
    show (P.sourceAll n ((D.forest.at' (.kids e)).map Int.ofNat) >>= _) = _
    rw [hb.1, sourceAll_spec k hr ks n hb.2 (fun x hx => (k.lists.mem x).1 ⟨.kids e, by rw [hb.1]; exact hx⟩) q6 (by omega), Out.ok_bind]
    unfold srcElem
    rw [hs]
    by_cases h0 : D.type e = NULL
    · simp only [if_pos h0]; rfl
    · simp only [if_neg h0]; rfl
theorem sourceAll_spec {P : Pool} {D : Doc} {els V fl} (k : Keeps P D els V fl) (hr : ∀ b, D.ready b = true) : ∀ (ks : List ETree) (fuel : Nat), D.BelowAll ks → (∀ x ∈ tops ks, x ∈ els) →
    D.EveryAll D.storedElem D.storedAttr ks → D.stepsAll ks ≤ fuel → P.sourceAll fuel ((tops ks).map Int.ofNat) = .ok (srcElems P D ks)
  | [], fuel, _, _, _, hf => by
    unfold Doc.stepsAll at hf
    obtain ⟨n, rfl⟩ : ∃ n, fuel = n + 1 := ⟨fuel - 1, by omega⟩
    rfl
  | T :: ks, fuel, hb, hm, hq, hf => by
    unfold Doc.stepsAll at hf
    unfold Doc.BelowAll at hb
    unfold Doc.EveryAll at hq
    obtain ⟨n, rfl⟩ : ∃ n, fuel = n + 1 := ⟨fuel - 1, by omega⟩
    have h1 := source_spec k hr T n hb.1 (hm T.top (by simp [tops])) hq.1 (by omega)
    have h2 := sourceAll_spec k hr ks n hb.2 (fun x hx => hm x (by simp only [tops, List.map_cons] at hx ⊢; exact List.mem_cons_of_mem _ hx)) hq.2 (by omega)
    show P.sourceAll (n + 1) ((T.top : Int) :: (tops ks).map Int.ofNat) = _
    unfold Pool.sourceAll srcElems
    rw [h1, Out.ok_bind, h2]; rfl
end

/-! ### what the creator makes of it -/

mutual
theorem srcElem_ok {P : Pool} {D : Doc} {els V fl} (k : Keeps P D els V fl) (pt : BStr → XBT) : ∀ T : ETree, D.Below T → T.top ∈ els → D.Every D.storedElem D.storedAttr T → TreeOk pt (srcElem P D T)
  | .node e ks, hb, he, hq => by
    unfold Doc.Every at hq
    unfold Doc.Below at hb
    obtain ⟨⟨q1, q2, q3, q4⟩, q5, q6⟩ := hq
    have he : e ∈ els := he
    unfold srcElem TreeOk
    refine ⟨?_, ?_, srcElems_ok k pt ks hb.2 (fun x hx => (k.lists.mem x).1 ⟨.kids e, by rw [hb.1]; exact hx⟩) q6⟩
    · by_cases h0 : D.type e = NULL
      · rw [if_pos h0]; trivial
      · rw [if_neg h0]
        obtain ⟨l, hl⟩ := dataOf_spec k he
        obtain ⟨g1, g2, g3, g4⟩ := good_types q3
        refine ⟨g1, g2, g3, q4, fun hv => ?_⟩
        rw [hl, (good_size q3 l hv).1]
        have := (good_size q3 l hv).2
        omega
    · intro p hp
      obtain ⟨a, ha, rfl⟩ := List.mem_map.1 hp
      obtain ⟨r1, r2, r3, r4⟩ := q5 a ha
      obtain ⟨l, hl⟩ := dataOf_spec k ((k.lists.mem a).1 ⟨_, ha⟩)
      obtain ⟨g1, g2, g3, g4⟩ := good_types r2
      refine ⟨g1, g2, g3, r3, r4, g4, fun hv => ?_⟩
      rw [hl, (good_size r2 l hv).1]
      have := (good_size r2 l hv).2
      omega
theorem srcElems_ok {P : Pool} {D : Doc} {els V fl} (k : Keeps P D els V fl) (pt : BStr → XBT) : ∀ ks : List ETree, D.BelowAll ks → (∀ x ∈ tops ks, x ∈ els) → D.EveryAll D.storedElem D.storedAttr ks →
    TreeOkAll pt (srcElems P D ks)
  | [], _, _, _ => by unfold srcElems TreeOkAll; trivial
  | T :: ks, hb, hm, hq => by
    unfold Doc.BelowAll at hb
    unfold Doc.EveryAll at hq
    unfold srcElems TreeOkAll
    exact ⟨srcElem_ok k pt T hb.1 (hm T.top (by simp [tops])) hq.1, srcElems_ok k pt ks hb.2 (fun x hx => hm x (by simp only [tops, List.map_cons] at hx ⊢; exact List.mem_cons_of_mem _ hx)) hq.2⟩
end

mutual
theorem srcElem_names {P : Pool} {D : Doc} {p q : BStr → Prop} (hp : ∀ s ∈ D.syms true, s.type ≠ UNKNOWN → p s.name) (hp' : p (b8 "et-tecera")) (hq' : ∀ s ∈ D.syms false, s.type ≠ UNKNOWN → q s.name) : ∀ T : ETree,
    D.Every D.storedElem D.storedAttr T → NamesIn p q (srcElem P D T)
  | .node e ks, hq => by
    unfold Doc.Every at hq
    obtain ⟨⟨q1, q2, q3, q4⟩, q5, q6⟩ := hq
    unfold srcElem NamesIn
    refine ⟨?_, ?_, srcElems_names hp hp' hq' ks q6⟩
    · obtain ⟨n, h1, rfl | ⟨s, h2, h3, rfl⟩⟩ := stored_name q2
      · rw [h1]; exact hp'
      · rw [h1]; exact hp s h2 h3
    · intro x hx
      obtain ⟨a, ha, rfl⟩ := List.mem_map.1 hx
      obtain ⟨s, -, h1, h2, h3⟩ := typed_name (q5 a ha).1
      show q ((D.nameOf false (D.id a)).getD [])
      rw [h3]; exact hq' s h1 h2
theorem srcElems_names {P : Pool} {D : Doc} {p q : BStr → Prop} (hp : ∀ s ∈ D.syms true, s.type ≠ UNKNOWN → p s.name) (hp' : p (b8 "et-tecera")) (hq' : ∀ s ∈ D.syms false, s.type ≠ UNKNOWN → q s.name) : ∀ ks : List ETree,
    D.EveryAll D.storedElem D.storedAttr ks → NamesInAll p q (srcElems P D ks)
  | [], _ => by unfold srcElems NamesInAll; trivial
  | T :: ks, hq => by
    unfold Doc.EveryAll at hq
    unfold srcElems NamesInAll
    exact ⟨srcElem_names hp hp' hq' T hq.1, srcElems_names hp hp' hq' ks hq.2⟩
end

theorem srcElems_length (P : Pool) (D : Doc) : ∀ ks : List ETree, (srcElems P D ks).length = ks.length
  | [] => rfl
  | _ :: ks => by unfold srcElems; rw [List.length_cons, srcElems_length P D ks, List.length_cons]

theorem elemsOf_length (D : Doc) : ∀ ks : List ETree, (D.elemsOf ks).length = ks.length
  | [] => rfl
  | _ :: ks => by unfold Doc.elemsOf; rw [List.length_cons, elemsOf_length D ks, List.length_cons]

mutual
/-- a file that reads as what the creator gets reads as the document -/
theorem reads_src {P : Pool} {D : Doc} {els V fl} (k : Keeps P D els V fl) {flt : CStr → List UInt8} {pt pt' : BStr → XBT} {f : Img} {r : Rd} : ∀ (T : ETree) (x : Int), D.Below T → T.top ∈ els →
    D.Every D.storedElem D.storedAttr T → Reads flt pt f r (srcElem P D T) x → Reads flt pt' f r (D.elemOf T) x
  | .node e ks, x, hb, he, hq, h => by
    unfold Doc.Every at hq
    unfold Doc.Below at hb
    obtain ⟨⟨q1, q2, q3, q4⟩, q5, q6⟩ := hq
    have he : e ∈ els := he
    unfold srcElem at h
    unfold Reads at h
    unfold Doc.elemOf Reads
    obtain ⟨h1, h2, h3, ⟨d, h4, h4'⟩, h5, h6⟩ := h
    refine ⟨h1, by simpa using h2, ?_, ⟨d, ?_, h4'⟩, by rw [elemsOf_length, ← srcElems_length P D]; exact h5, ?_⟩
    · intro i hi
      have hi' : i < (D.forest.at' (.attrs e)).length := by simpa using hi
      obtain ⟨a, id, g1, g2, g3, g4⟩ := h3 i (by simpa using hi')
      have ha := List.getElem_mem hi'
      obtain ⟨r1, r2, r3, r4⟩ := q5 _ ha
      obtain ⟨l, hl⟩ := dataOf_spec k ((k.lists.mem _).1 ⟨_, ha⟩)
      refine ⟨a, id, g1, g2, ?_, ?_⟩
      · rw [g3, List.getElem_map, List.getElem_map]; rfl
      · rw [g4, List.getElem_map, List.getElem_map]
        show Out.ok (binData (D.type _) (P.dataOf _)) = Out.ok (binData (D.type _) (D.val _))
        have := binData_good r2 []
        rw [List.append_nil] at this
        rw [hl, binData_good r2, this]
    · rw [← h4]
      by_cases h0 : D.type e = NULL
      · rw [if_pos h0]
        simp only [nodeData, h0, binData, if_true]
      · rw [if_neg h0]
        obtain ⟨l, hl⟩ := dataOf_spec k he
        show some (binData _ _) = some (binData _ _)
        have := binData_good q3 []
        rw [List.append_nil] at this
        rw [hl, binData_good q3, this]
    · exact readsAll_src k ks x 0 hb.2 (fun x hx => (k.lists.mem x).1 ⟨.kids e, by rw [hb.1]; exact hx⟩) q6 h6
theorem readsAll_src {P : Pool} {D : Doc} {els V fl} (k : Keeps P D els V fl) {flt : CStr → List UInt8} {pt pt' : BStr → XBT} {f : Img} {r : Rd} : ∀ (ks : List ETree) (x : Int) (i : Nat), D.BelowAll ks →
    (∀ x ∈ tops ks, x ∈ els) → D.EveryAll D.storedElem D.storedAttr ks → ReadsAll flt pt f r (srcElems P D ks) x i → ReadsAll flt pt' f r (D.elemsOf ks) x i
  | [], _, _, _, _, _, _ => by unfold Doc.elemsOf ReadsAll; trivial
  | T :: ks, x, i, hb, hm, hq, h => by
    unfold Doc.BelowAll at hb
    unfold Doc.EveryAll at hq
    unfold srcElems at h
    unfold ReadsAll at h
    unfold Doc.elemsOf ReadsAll
    obtain ⟨⟨y, h1, h2⟩, h3⟩ := h
    exact ⟨⟨y, h1, reads_src k T y hb.1 (hm T.top (by simp [tops])) hq.1 h2⟩, readsAll_src k ks x (i + 1) hb.2 (fun x hx => hm x (by simp only [tops, List.map_cons] at hx ⊢; exact List.mem_cons_of_mem _ hx)) hq.2 h3⟩
end

/-! ### the symbols -/

/-- the registrations of the symbols of a document -/
def docOps (l : List Sym) : List RegOp := (l.filter fun s => s.type ≠ UNKNOWN).map fun s => .typed s.name s.type

theorem getSymbolAt_spec {P : Pool} {D : Doc} {els V fl} (k : Keeps P D els V fl) {b : Bool} (hr : D.ready b = true) {i : Nat} (hi : i < (D.syms b).length) :
    P.getSymbolAt b i = .ok (if b = false ∧ (D.syms b)[i].type = UNKNOWN then none else some (D.syms b)[i].name, (D.syms b)[i].type) := by
  have hs : D.syms b ≠ [] := List.ne_nil_of_mem (List.getElem_mem hi)
  unfold Pool.getSymbolAt
  rw [symType_spec k hr hs, Out.ok_bind]
  have e1 : D.symType b (i : Int) = (D.syms b)[i].type := by
    unfold Doc.symType
    rw [if_neg (by omega), Int.toNat_natCast, List.getElem?_eq_getElem hi]; rfl
  have e2 : D.nameOf b (i : Int) = some (D.syms b)[i].name := by
    unfold Doc.nameOf
    rw [if_neg (by omega), Int.toNat_natCast, List.getElem?_eq_getElem hi]; rfl
  simp only [e1]
  split
  · rfl
  · rw [nameOf_spec k hr hs, e2]; rfl

theorem symbolOps_spec {P : Pool} {D : Doc} {els V fl} (k : Keeps P D els V fl) {b : Bool} (hr : D.ready b = true) : ∀ (n i : Nat), i + n = (D.syms b).length →
    P.symbolOps b n i = .ok (docOps ((D.syms b).drop i))
  | 0, i, h => by
    unfold Pool.symbolOps
    rw [List.drop_of_length_le (by omega)]; rfl
  | n + 1, i, h => by
    have hi : i < (D.syms b).length := by omega
    unfold Pool.symbolOps
    rw [getSymbolAt_spec k hr hi, Out.ok_bind, symbolOps_spec k hr n (i + 1) (by omega), Out.ok_bind, List.drop_eq_getElem_cons hi]
    unfold docOps
    simp only [List.filter_cons]
    by_cases hu : (D.syms b)[i].type = UNKNOWN
    · by_cases hb : b = false
      · rw [if_pos ⟨hb, hu⟩]; simp [hu]
      · rw [if_neg (fun h => hb h.1)]; simp [hu]
    · rw [if_neg (fun h => hu h.2)]; simp [hu]

theorem symbolCount_spec {P : Pool} {D : Doc} {els V fl} (k : Keeps P D els V fl) (b : Bool) : P.symbolCount b = (D.syms b).length := by
  have := (k.tabs b).max
  unfold Pool.symbolCount; omega

end BX
