import Verif.Lemmas.Path
import Verif.Props.Copy
/-
C70: comparing and copying the key attributes of an element.
-/
namespace BX
open XBT Spec

/-- what the comparison means when no name of a key is used twice: for every name of a key either both have it, with the same value, or
neither has it -/
theorem C70_means (flt : CStr → List UInt8) (isKey : Int → Bool) (as bs : List (Int × Data)) (hn : ((keysOf isKey as).map Prod.fst).Nodup) :
    sameKeys flt isKey as bs = true ↔ ∀ n, isKey n = true → match firstOf n as, firstOf n bs with
      | some a, some b => sameData flt a b = true
      | none, none => True
      | _, _ => False := by
  have hmem : ∀ {n d} {l : List (Int × Data)}, firstOf n l = some d → (n, d) ∈ l := by
    intro n d l h
    unfold firstOf at h
    rw [Option.map_eq_some_iff] at h
    obtain ⟨a, a1, rfl⟩ := h
    have := List.find?_some a1
    rw [← of_decide_eq_true this]
    exact List.mem_of_find?_eq_some a1
  have hnone : ∀ {n} {l : List (Int × Data)}, firstOf n l = none → ∀ a ∈ l, a.1 ≠ n := by
    intro n l h a ha hc
    unfold firstOf at h
    rw [Option.map_eq_none_iff, List.find?_eq_none] at h
    exact h a ha (by simpa using hc)
  have huniq : ∀ (l : List (Int × Data)), (l.map Prod.fst).Nodup → ∀ a ∈ l, ∀ b ∈ l, a.1 = b.1 → a = b := by
    intro l
    induction l with
    | nil => intro _ a ha; cases ha
    | cons x l ih =>
      intro hl a ha b hb he
      rw [List.map_cons, List.nodup_cons] at hl
      rcases List.mem_cons.1 ha with rfl | ha1 <;> rcases List.mem_cons.1 hb with rfl | hb1
      · rfl
      · exact absurd (List.mem_map.2 ⟨b, hb1, he.symm⟩) hl.1
      · exact absurd (List.mem_map.2 ⟨a, ha1, he⟩) hl.1
      · exact ih hl.2 a ha1 b hb1 he
  unfold sameKeys
  rw [Bool.and_eq_true, List.all_eq_true, List.all_eq_true]
  constructor
  · rintro ⟨h1, h2⟩ n hk
    cases ha : firstOf n as with
    | some a =>
      have := h1 (n, a) (List.mem_filter.2 ⟨hmem ha, hk⟩)
      cases hb : firstOf n bs with
      | some b => simp only at this ⊢; rw [hb] at this; simpa using this
      | none => simp only at this; rw [hb] at this; simp at this
    | none =>
      cases hb : firstOf n bs with
      | none => trivial
      | some b =>
        have := h2 (n, b) (List.mem_filter.2 ⟨hmem hb, hk⟩)
        rw [List.any_eq_true] at this
        obtain ⟨a, a1, a2⟩ := this
        exact absurd (of_decide_eq_true a2) (hnone ha a a1)
  · intro h
    refine ⟨fun a ha => ?_, fun b hb => ?_⟩
    · obtain ⟨m1, m2⟩ := List.mem_filter.1 ha
      have := h a.1 m2
      cases hf : firstOf a.1 as with
      | none => exact absurd rfl (hnone hf a m1)
      | some d =>
        have he : a = (a.1, d) := huniq _ hn _ ha _ (List.mem_filter.2 ⟨hmem hf, m2⟩) rfl
        rw [hf] at this
        cases hb : firstOf a.1 bs with
        | none => rw [hb] at this; exact this.elim
        | some b =>
          rw [hb] at this
          rw [show a.2 = d from congrArg Prod.snd he]
          simpa using this
    · obtain ⟨m1, m2⟩ := List.mem_filter.1 hb
      have := h b.1 m2
      rw [List.any_eq_true]
      cases hf : firstOf b.1 as with
      | some d => exact ⟨(b.1, d), hmem hf, by simp⟩
      | none =>
        rw [hf] at this
        cases hb : firstOf b.1 bs with
        | none => exact absurd rfl (hnone hb b m1)
        | some b => rw [hb] at this; exact this.elim

/-- C70, as far as it is true: in every history, for every element of the document and every item of a file with at most 16 keys, `EqualKeys`
tells whether they have the same keys. (The conversions of texts that are compared with values of other types must be defined.) -/
theorem C70_equal_partial (E : Env) (maxSize : Nat) (h1 : 0x4000 ≤ maxSize) (h2 : maxSize < 2147483648) (flt : CStr → List UInt8) (hflt : ∀ s, (flt s).length = 4) (isKey : Int → Bool) (f : Img)
    (hf : f.size + 64 < 2147483648) (P : Pool) (D : Doc) (h : Sess E maxSize P D) (e : Nat) (he : D.forest.Elem e) (x : Int) (as : List (Int × Data)) (hx : ShowsAttrs f x as) (hc : D.Clear flt isKey e as)
    (h16 : (keysOf isKey as).length ≤ 16) : ∃ N, ∀ fuel, N ≤ fuel → P.equalKeys flt isKey f e x fuel = .ok (sameKeys flt isKey as (D.attrsOf e)) := by
  obtain ⟨els, V, fl, k⟩ := sess_keeps h1 h2 h
  refine ⟨(D.forest.at' (.attrs e)).length + 1, fun fuel hfu => ?_⟩
  rw [equalKeys_spec hflt isKey hf k ((k.lists.mem e).1 he) hx hc (by omega), decide_eq_true h16, Bool.and_true]

/-- C70 is false of items with more than 16 keys: no element is equal to them, also if it has the same keys. -/
theorem C70_many_false (E : Env) (maxSize : Nat) (h1 : 0x4000 ≤ maxSize) (h2 : maxSize < 2147483648) (flt : CStr → List UInt8) (hflt : ∀ s, (flt s).length = 4) (isKey : Int → Bool) (f : Img)
    (hf : f.size + 64 < 2147483648) (P : Pool) (D : Doc) (h : Sess E maxSize P D) (e : Nat) (he : D.forest.Elem e) (x : Int) (as : List (Int × Data)) (hx : ShowsAttrs f x as) (hc : D.Clear flt isKey e as)
    (h16 : 16 < (keysOf isKey as).length) : ∃ N, ∀ fuel, N ≤ fuel → P.equalKeys flt isKey f e x fuel = .ok false := by
  obtain ⟨els, V, fl, k⟩ := sess_keeps h1 h2 h
  refine ⟨(D.forest.at' (.attrs e)).length + 1, fun fuel hfu => ?_⟩
  rw [equalKeys_spec hflt isKey hf k ((k.lists.mem e).1 he) hx hc (by omega), decide_eq_false (by omega), Bool.and_false]

/-- `CopyKeys` into an element without attributes and children makes its keys equal to those of the item, and changes nothing else: at most 16
keys, of different names, that can be stored with the types of their symbols. -/
theorem C70_copied (E : Env) (maxSize : Nat) (h1 : 0x4000 ≤ maxSize) (h2 : maxSize < 2147483648) (flt : CStr → List UInt8) (hflt : ∀ s, (flt s).length = 4) (isKey : Int → Bool) (f : Img)
    (hf : f.size + 64 < 2147483648) (P : Pool) (D : Doc) (h : Sess E maxSize P D) (p : Nat) (hp : D.forest.Elem p) (hk : D.forest.at' (.kids p) = []) (ha : D.forest.at' (.attrs p) = []) (x : Int)
    (as as' : List (Int × Data)) (hid : f.name x = .ok (D.id p)) (hx : ShowsAttrs f x as) (ht : D.takesAttrs flt (keysOf isKey as) = some as') (hfew : FewKeys isKey as) (room : P.alloc + attrsRoom as ≤ P.limit) :
    ∃ Q D' N, P.copyKeys flt isKey f p x = .ok (Q, true) ∧ Sess E maxSize Q D' ∧ GrewBelow p D D' ∧ D'.forest.at' (.kids p) = [] ∧ D'.attrsOf p = as' ∧
      ∀ fuel, N ≤ fuel → Q.equalKeys flt isKey f p x fuel = .ok true := by
  obtain ⟨Q, D', c1, c2, c3, c4, c5, c6⟩ := copyKeys_ok h1 h2 hflt (isKey := isKey) (by omega) h hp hk ha hid hx ht room
  have hkk : keysOf isKey as' = as' := by
    refine List.filter_eq_self.2 fun b hb => ?_
    have : b.1 ∈ as'.map Prod.fst := List.mem_map.2 ⟨b, hb, rfl⟩
    rw [takesAttrs_names _ _ ht] at this
    obtain ⟨a, ha, he⟩ := List.mem_map.1 this
    rw [← he]; exact (List.mem_filter.1 ha).2
  obtain ⟨N, hN⟩ := C70_equal_partial E maxSize h1 h2 flt hflt isKey f hf Q D' c2 p (c3.elem p hp).1 x as hx (clear_new hflt c5 (fun b hb _ => takesAttrs_types _ _ ht b hb) (by rw [ht]; simp)) hfew.2
  refine ⟨Q, D', N, c1, c2, c3, c4, attrsAre_attrsOf c5, fun fuel hfu => ?_⟩
  rw [hN fuel hfu, attrsAre_attrsOf c5, sameKeys_taken (by rw [hkk]; exact ht) hfew.1]

/-! ### examples -/

/-- the attributes of the two symbols of the examples are keys -/
def demoKey (n : Int) : Bool := n == 0 || n == 1

/-- the hypotheses of `C70_copied`, and so those of `C70_equal_partial` and `C70_means`, are met: `<o n="x" q="17">` -/
example : ∃ Q N, (desk6 STRING).copyKeys (fun _ => [0,0,0,0]) demoKey (fileOf copySource) (140 : Nat) 204 = .ok (Q, true) ∧
    ∀ fuel, N ≤ fuel → Q.equalKeys (fun _ => [0,0,0,0]) demoKey (fileOf copySource) (140 : Nat) 204 fuel = .ok true := by
  obtain ⟨D, h, h1, h2, h3, h4, h5, h6, h7, h8⟩ := desk_sess STRING (Or.inl rfl)
  have hs : ∀ id, D.typeOf false id = some (D.symType false id) := fun id => by
    unfold Doc.typeOf
    rw [if_pos ⟨h3, by rw [h2]; simp⟩]
  have t0 : D.symType false 0 = STRING := by unfold Doc.symType; rw [h2]; rfl
  have t1 : D.symType false 1 = INT32 := by unfold Doc.symType; rw [h2]; rfl
  have hkeys : keysOf demoKey copyTree.attrs = copyTree.attrs := rfl
  have ht : D.takesAttrs (fun _ => [0,0,0,0]) (keysOf demoKey copyTree.attrs) = some copyTree.attrs := by
    rw [hkeys]
    simp only [copyTree, Doc.takesAttrs, Doc.takesAttr, CTree.attrs, hs, t0, t1, asType]
    rfl
  obtain ⟨s1, s2⟩ := fileShows_attrs fileShows_source
  obtain ⟨Q, -, N, h, -, -, -, -, h'⟩ := C70_copied demoEnv 0x8000 (by decide) (by decide) (fun _ => [0,0,0,0]) (fun _ => rfl) demoKey (fileOf copySource) (by decide +kernel) (desk6 STRING) D h 140
    ⟨.loose 0, by rw [h5]; simp⟩ h6 h7 204 copyTree.attrs copyTree.attrs (by rw [h8]; exact s1) s2 ht (by rw [FewKeys, hkeys]; decide) (by decide +kernel)
  exact ⟨Q, N, h, h'⟩

/-- `CopyKeys` and then `EqualKeys` -/
def keysRun (f : Img) (P : Pool) : Option (Bool × Bool) :=
  match P.copyKeys (fun _ => [0,0,0,0]) demoKey f 140 204 with
  | .ok (Q, r) => (match Q.equalKeys (fun _ => [0,0,0,0]) demoKey f 140 204 30 with | .ok e => some (r, e) | _ => none)
  | _ => none

/-- the value that the first attribute has after `CopyKeys` -/
def keyValue (f : Img) (P : Pool) : Out Data := do
  let r ← P.copyKeys (fun _ => [0,0,0,0]) demoKey f 140 204
  let l ← r.1.listAt 140 20 9
  elemValue r.1 (l.headD 0)

/-- C70 is false in general: the number 0 is equal to the text "x" -/
theorem C70_text_false : keyValue (fileOf copySource) (desk6 INT32) = .ok ⟨INT32, le32 0⟩ ∧ keysRun (fileOf copySource) (desk6 INT32) = some (true, true) := by decide +kernel

/-- `<o q="1" q="2"><i/></o>` -/
def twiceSource : Elem := .mk (b8 "o") .none [(b8 "n", .text "x".toList), (b8 "q", .text "1".toList), (b8 "q", .text "2".toList)] [.mk (b8 "i") (.text "5".toList) [] []]

/-- C70 is false in general: where the item has two keys of one name, its copy is not equal to it -/
theorem C70_twice_false : keysRun (fileOf twiceSource) (desk6 STRING) = some (true, false) := by decide +kernel

/-- `<o n="x" q="1" …><i>5</i></o>` with 17 keys -/
def manySource (k : Nat) : Elem := .mk (b8 "o") .none ((b8 "n", .text "x".toList) :: List.replicate k (b8 "q", .text "1".toList)) [.mk (b8 "i") (.text "5".toList) [] []]

/-- C70 is false in general: a copy of 16 keys is equal, of 17 keys it is not -/
theorem C70_seventeen_false : keysRun (fileOf (manySource 15)) (desk6 STRING) = some (true, true) ∧ keysRun (fileOf (manySource 16)) (desk6 STRING) = some (true, false) := by decide +kernel

/-- whether an item shows these attributes -/
def showsAttrsB (f : Img) (x : Int) (as : List (Int × Data)) : Bool :=
  decide (f.paramcount x = .ok (as.length : Int)) && (List.range as.length).all fun i => match f.getParamByIndex x i with
    | .ok (some a) => decide (f.pName a = .ok (as.getD i (0, ⟨NULL, []⟩)).1) && decide (f.pGetData x a = .ok (as.getD i (0, ⟨NULL, []⟩)).2)
    | _ => false

theorem showsAttrsB_ok {f : Img} {x : Int} {as : List (Int × Data)} (h : showsAttrsB f x as = true) : ShowsAttrs f x as := by
  unfold showsAttrsB at h
  rw [Bool.and_eq_true, List.all_eq_true] at h
  refine ⟨of_decide_eq_true h.1, fun i hi => ?_⟩
  have := h.2 i (List.mem_range.2 hi)
  cases hg : f.getParamByIndex x i with
  | ok r =>
    cases r with
    | none => rw [hg] at this; cases this
    | some a =>
      rw [hg] at this
      simp only [Bool.and_eq_true, decide_eq_true_eq, List.getD_eq_getElem?_getD, List.getElem?_eq_getElem hi, Option.getD_some] at this
      exact ⟨a, rfl, this.1, this.2⟩
  | fail => rw [hg] at this; cases this
  | ub => rw [hg] at this; cases this

/-- the hypotheses of `C70_many_false` are met -/
example : ∃ N, ∀ fuel, N ≤ fuel → (desk6 STRING).equalKeys (fun _ => [0,0,0,0]) demoKey (fileOf (manySource 16)) (140 : Nat) 204 fuel = .ok false := by
  obtain ⟨D, h, h1, h2, h3, h4, h5, h6, h7, h8⟩ := desk_sess STRING (Or.inl rfl)
  exact C70_many_false demoEnv 0x8000 (by decide) (by decide) (fun _ => [0,0,0,0]) (fun _ => rfl) demoKey (fileOf (manySource 16)) (by decide +kernel) (desk6 STRING) D h 140 ⟨.loose 0, by rw [h5]; simp⟩ 204
    ((0, ⟨STRING, b8 "x" ++ [0]⟩) :: List.replicate 16 (1, ⟨INT32, le32 1⟩)) (showsAttrsB_ok (by decide +kernel)) (by intro a ha; rw [h7] at ha; cases ha) (by decide +kernel)

end BX
