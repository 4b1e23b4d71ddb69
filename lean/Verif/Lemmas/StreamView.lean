import Verif.Lemmas.Stream
import Verif.Lemmas.SourceXb
/-
A writable document as it is printed.
-/
namespace BX
open XBT Spec

theorem step_elem {P Q : Pool} {D : Doc} {els V fl} (k : Keeps P D els V fl) {op : ListOp} {G : Forest} (hs : Step D.forest op G) (hr : op.run P = .ok Q) (e : Nat) : G.Elem e ↔ D.forest.Elem e := by
  obtain ⟨V', fl', k'⟩ := k.step hs hr
  rw [k.lists.mem e]
  exact k'.lists.mem e

/-- the elements of a document are at multiples of 4, those with a type of 8 bytes at multiples of 8 -/
theorem sess_aligned {E : Env} {maxSize : Nat} (h1 : 0x4000 ≤ maxSize) (h2 : maxSize < 2147483648) {P : Pool} {D : Doc} (h : Sess E maxSize P D) :
    ∀ e, D.forest.Elem e → e % 4 = 0 ∧ (xalign (D.type e) = 8 → e % 8 = 0) := by
  have plus : ∀ {D : Doc} {k o : Nat} {b : Bool} {id : Int} {t : XBT} {v : List UInt8}, (∀ e, D.forest.Elem e → e % 4 = 0 ∧ (xalign (D.type e) = 8 → e % 8 = 0)) →
      o % 4 = 0 → (xalign t = 8 → o % 8 = 0) → ∀ e, (D.plus k o b id t v).forest.Elem e → e % 4 = 0 ∧ (xalign ((D.plus k o b id t v).type e) = 8 → e % 8 = 0) := by
    intro D k o b id t v ih o4 o8 e he
    show e % 4 = 0 ∧ (xalign (if e = o then t else D.type e) = 8 → e % 8 = 0)
    by_cases heq : e = o
    · rw [if_pos heq, heq]; exact ⟨o4, o8⟩
    · rw [if_neg heq]
      refine ih e ?_
      obtain ⟨q, hq⟩ := he
      simp only [Doc.plus, Forest.put] at hq
      by_cases hqk : q = .loose k
      · rw [if_pos hqk] at hq
        simp only [List.mem_cons, List.not_mem_nil, or_false] at hq
        exact absurd hq heq
      · rw [if_neg hqk] at hq
        exact ⟨q, hq⟩
  induction h with
  | start => rintro e ⟨q, hq⟩; simp [Doc.empty, Forest.none] at hq
  | created => rintro e ⟨q, hq⟩; simp [Doc.empty, Forest.none] at hq
  | reopened _ _ ih => exact ih
  | killed _ _ _ _ ih => exact ih
  | made hs _ _ hm _ ih =>
    obtain ⟨els, V, fl, k⟩ := sess_keeps h1 h2 hs
    obtain ⟨-, -, o4, o8, -⟩ := (make_spec k.sees.ok hm).2 _ rfl
    exact plus ih o4 o8
  | refused _ _ ih => exact ih
  | copied hs _ hm _ ih =>
    obtain ⟨els, V, fl, k⟩ := sess_keeps h1 h2 hs
    obtain ⟨-, o8, -⟩ := (makeData_spec k.sees.ok hm).2 _ rfl
    exact plus ih (by omega) fun _ => o8
  | notCopied _ _ ih => exact ih
  | space _ _ ih => exact ih
  | step hs hst hr ih =>
    obtain ⟨els, V, fl, k⟩ := sess_keeps h1 h2 hs
    exact fun e he => ih e ((step_elem k hst hr e).1 he)
  | stored _ _ _ _ ih => exact ih
  | @retyped _ _ D e t hs he hr ih =>
    obtain ⟨els, V, fl, k⟩ := sess_keeps h1 h2 hs
    intro x hx
    refine ⟨(ih x hx).1, fun ht => ?_⟩
    simp only [Doc.withType] at ht
    split at ht
    · next hxe =>
      subst hxe
      refine (ih x hx).2 ?_
      rcases elemRetype_spec k he hr with ⟨hc, -⟩ | ⟨-, -, rfl | ⟨h4, -⟩ | ⟨-, h8⟩ | ⟨hv, -⟩⟩
      · cases hc
      · exact ht
      · exact absurd ht (by revert h4; cases t <;> decide)
      · revert h8; cases D.type x <;> decide
      · exact absurd ht (by revert hv; cases t <;> decide)
    · exact (ih x hx).2 ht
  | written _ _ _ ih => exact ih
  | rooted _ _ _ ih => exact ih
  | registered _ _ _ _ _ _ ih => exact ih
  | unregistered _ _ _ _ _ _ ih => exact ih
  | altered _ _ ih => exact ih
  | allRegistered _ _ ih => exact ih
  | cleared _ _ _ => rintro e ⟨q, hq⟩; simp [Doc.cleared, Doc.empty, Forest.none] at hq

theorem chunkValue_spec {P : Pool} {e : Nat} {id : Int} {t : XBT} {v : List UInt8} (h : ElemAt P e id t v) (hs : P.alloc ≤ P.fileSize) (hg : GoodVal t v ∨ (t = UNIX_DATE ∧ v.length = 4))
    (a4 : e % 4 = 0) (a8 : xalign t = 8 → e % 8 = 0) : P.img.chunkValue t ((e : Int) + 24) = .ok ⟨t, readable t v⟩ := by
  have hhi := h.hi
  have hq : (if xalign t = 4 then aaI ((e : Int) + 24) else if xalign t = 8 then aa8I ((e : Int) + 24) else (e : Int) + 24) = ((e + 24 : Nat) : Int) := by
    unfold aaI aa8I
    split
    · omega
    · split
      · have := a8 (by assumption); omega
      · omega
  have rd : ∀ n, n ≤ v.length → P.img.rd ((e + 24 : Nat) : Int) n = .ok (v.take n) := by
    intro n hn
    have hv := h.val
    rw [← List.take_append_drop n v, Has.append] at hv
    exact Img.rd_ok (f := P.img) (a := e + 24) hv.1 (by rw [List.length_take]; show _ ≤ P.fileSize; omega) _ (by omega) _ (by rw [List.length_take]; omega)
  unfold Img.chunkValue
  simp only [hq]
  by_cases hd : t = UNIX_DATE
  · subst hd
    have hl : v.length = 4 := by
      rcases hg with hg | hg
      · simp [GoodVal, is4, isINT32, fixedSize] at hg
      · exact hg.2
    rw [if_pos rfl, rd 4 (by omega), Out.ok_bind, List.take_of_length_le (by omega)]
    rfl
  rw [if_neg hd]
  have hg : GoodVal t v := by
    rcases hg with hg | hg
    · exact hg
    · exact absurd hg.1 hd
  by_cases hN : t = NULL
  · subst hN
    have : v.length = 0 := by simpa [GoodVal, is4, isINT32, fixedSize] using hg
    rw [if_pos rfl, List.eq_nil_of_length_eq_zero this]
    rfl
  rw [if_neg hN]
  unfold Img.content
  by_cases h4 : is4 t = true
  · have : v.length = 4 ∧ readable t v = v := by
      cases t <;> first | (exact absurd h4 (by decide)) | (refine ⟨?_, rfl⟩; simpa [GoodVal, is4, isINT32] using hg)
    rw [if_pos h4, rd 4 (by omega), Out.ok_bind, List.take_of_length_le (by omega), this.2]; rfl
  rw [if_neg h4]
  by_cases h8 : is8 t = true
  · have : v.length = 8 ∧ readable t v = v := by
      cases t <;> first | (exact absurd h8 (by decide)) | (refine ⟨?_, rfl⟩; simp [GoodVal, is4, isINT32, fixedSize] at hg; omega)
    rw [if_pos h8, rd 8 (by omega), Out.ok_bind, List.take_of_length_le (by omega), this.2]; rfl
  rw [if_neg h8]
  by_cases hS : t = STRING
  · subst hS
    rw [if_pos rfl]
    obtain ⟨l, hl⟩ := cPrefix_mem (show (0 : UInt8) ∈ v from hg)
    have hv := h.val
    rw [hl, show cPrefix v ++ 0 :: l = (cPrefix v ++ [0]) ++ l by simp, Has.append] at hv
    have hlen := congrArg List.length hl
    simp only [List.length_append, List.length_cons] at hlen
    rw [Img.str_ok (f := P.img) hv.1 (cPrefix_noNul v) (by show _ ≤ P.fileSize; omega) _ (by omega), Out.ok_bind]
    rfl
  rw [if_neg hS]
  by_cases hvz : isVarsize t = true
  · have : readable t v = v ∧ ∃ bs, v = le32 (bs.length : Int) ++ bs ∧ bs.length + 4 < 2147483648 := by
      cases t <;> first | (exact absurd hvz (by decide)) | exact ⟨rfl, hg⟩
    obtain ⟨g1, bs, g2, g3⟩ := this
    have hv := h.val
    rw [g2, Has.append] at hv
    have hlen := congrArg List.length g2
    have hle : (le32 (bs.length : Int)).length = 4 := leN_length _ _
    simp only [List.length_append, hle] at hlen
    rw [if_pos hvz, Img.i32_ok (f := P.img) (a := e + 24) hv.1 (by show _ ≤ P.fileSize; omega) (by unfold isI32 INT_MIN INT_MAX; omega) _ (by omega), Out.ok_bind, if_neg (by omega),
      show (4 + (bs.length : Int)).toNat = v.length by omega, rd _ (Nat.le_refl _), Out.ok_bind, List.take_length, g1]; rfl
  rw [if_neg hvz]
  by_cases h20 : t = SHA1
  · subst h20
    have hg : 20 ≤ v.length := hg
    rw [if_neg (by decide), show (fixedSize SHA1).toNat = 20 by decide, rd 20 hg]; rfl
  have : readable t v = v ∧ (v.length : Int) = fixedSize t := by
    cases t <;> first | contradiction | (refine ⟨rfl, ?_⟩; simpa [GoodVal, is4, isINT32] using hg)
  rw [if_neg (by omega), show (fixedSize t).toNat = v.length by omega, rd _ (Nat.le_refl _), Out.ok_bind, List.take_length, this.1]; rfl

theorem valueText_readable (gm : Gm) (flt : List UInt8 → CStr) (t : XBT) (v : List UInt8) : valueText gm flt ⟨t, readable t v⟩ = valueText gm flt ⟨t, v⟩ := by
  by_cases hS : t = STRING
  · subst hS
    unfold valueText
    simp only [if_true]
    congr 2
    show (v.takeWhile (· ≠ 0) ++ [0]).takeWhile (· ≠ 0) = _
    exact takeWhile_stop _ _ _ _ (fun x hx => by simpa using cPrefix_noNul v x hx) (by simp)
  · by_cases h20 : t = SHA1
    · subst h20
      unfold valueText
      simp [readable, chunkText, List.take_take]
    · have : readable t v = v := by cases t <;> first | contradiction | rfl
      rw [this]


/-- a tree of a document as it is printed -/
def attrNode (D : Doc) (junk : Int → CStr) (a : Nat) : BStr × SAttr := ((D.nameOf false (D.id a)).getD [], .bin ⟨D.type a, readable (D.type a) (D.val a)⟩ (junk a))

mutual
def nodeOf (D : Doc) (junk : Int → CStr) : ETree → SNode
  | .node e ks => .mk ((D.nameOf true (D.id e)).getD []) ((D.forest.at' (.attrs e)).map (attrNode D junk)) (D.type e)
      (if D.type e = NULL then none else some (⟨D.type e, readable (D.type e) (D.val e)⟩, junk e)) (nodesOf D junk ks)
def nodesOf (D : Doc) (junk : Int → CStr) : List ETree → List SNode
  | [] => []
  | k :: ks => nodeOf D junk k :: nodesOf D junk ks
end

theorem viewValue_spec {P : Pool} {D : Doc} {els V fl} (k : Keeps P D els V fl) (ha : ∀ e, D.forest.Elem e → e % 4 = 0 ∧ (xalign (D.type e) = 8 → e % 8 = 0)) {e : Nat} (he : e ∈ els) {txt : Data → Option CStr}
    (hg : PrintVal txt (D.type e) (D.val e)) (junk : Int → CStr) :
    P.viewValue junk e = .ok (D.type e, if D.type e = NULL then none else some (⟨D.type e, readable (D.type e) (D.val e)⟩, junk e)) := by
  have hal := ha e ((k.lists.mem e).2 he)
  have hc := chunkValue_spec (k.elem e he) k.sees.size.1 hg.1 hal.1 hal.2
  have hb : ∃ n, P.nodeBinValue e = .ok (D.type e, n, if D.type e = NULL then none else some (P.dataOf e)) := by
    by_cases hd : D.type e = UNIX_DATE
    · refine ⟨0, ?_⟩
      unfold Pool.nodeBinValue
      rw [elemType_spec k he, Out.ok_bind, hd]
      rfl
    · rcases hg.1 with h | h
      · exact ⟨_, nodeBinValue_spec k he h⟩
      · exact absurd h.1 hd
  obtain ⟨n, hb⟩ := hb
  unfold Pool.viewValue
  rw [hb, Out.ok_bind]
  by_cases hN : D.type e = NULL
  · simp only [if_pos hN]; rfl
  · simp only [if_neg hN, hc]; rfl

theorem viewAttrs_spec {P : Pool} {D : Doc} {els V fl} (k : Keeps P D els V fl) (ha : ∀ e, D.forest.Elem e → e % 4 = 0 ∧ (xalign (D.type e) = 8 → e % 8 = 0)) {txt : Data → Option CStr} (junk : Int → CStr) :
    ∀ l : List Nat, (∀ a ∈ l, a ∈ els) → (∀ a ∈ l, D.printable txt false a) → P.viewAttrs junk (l.map Int.ofNat) = .ok (l.map (attrNode D junk))
  | [], _, _ => rfl
  | a :: l, hm, hp => by
    have he := hm a (by simp)
    have hal := ha a ((k.lists.mem a).2 he)
    obtain ⟨-, h1, h2, ⟨n, h3, -⟩, h4⟩ := hp a (by simp)
    have ih := viewAttrs_spec k ha (txt := txt) junk l (fun x hx => hm x (List.mem_cons_of_mem _ hx)) (fun x hx => hp x (List.mem_cons_of_mem _ hx))
    have hv : P.viewAttr junk (a : Int) = .ok (attrNode D junk a) := by
      unfold Pool.viewAttr
      rw [(k.elem a he).eId k.sees.size.1, Out.ok_bind, nameOf_spec k h1 h2, Out.ok_bind]
      simp only [h3]
      rw [elemType_spec k he, Out.ok_bind, chunkValue_spec (k.elem a he) k.sees.size.1 h4.1 hal.1 hal.2, Out.ok_bind]
      unfold attrNode
      rw [h3]; rfl
    simp only [List.map_cons]
    unfold Pool.viewAttrs
    show P.viewAttr junk (a : Int) >>= _ = _
    rw [hv, Out.ok_bind, ih]; rfl

mutual
theorem view_spec {P : Pool} {D : Doc} {els V fl} (k : Keeps P D els V fl) (ha : ∀ e, D.forest.Elem e → e % 4 = 0 ∧ (xalign (D.type e) = 8 → e % 8 = 0)) {txt : Data → Option CStr} (junk : Int → CStr) :
    ∀ (T : ETree) (fuel : Nat), D.Below T → T.top ∈ els → D.Every (D.printable txt true) (D.printable txt false) T → D.steps T ≤ fuel → P.view junk fuel T.top = .ok (nodeOf D junk T)
  | .node e ks, fuel, hb, he, hq, hf => by
    unfold Doc.steps at hf
    unfold Doc.Below at hb
    unfold Doc.Every at hq
    obtain ⟨n, rfl⟩ : ∃ n, fuel = n + 1 := ⟨fuel - 1, by omega⟩
    have he : e ∈ els := he
    obtain ⟨⟨q1, q2, q3, ⟨nm, q4, -⟩, q5⟩, q6, q7⟩ := hq
    have hlk : (D.forest.at' (.kids e)).length = ks.length := by rw [hb.1, tops_length]
    show P.view junk (n + 1) e = _
    unfold Pool.view
    rw [nodeName_spec k he (by rw [q1]; exact q2) (by rw [q1]; exact q3), Out.ok_bind, q1, q4]
    simp only
    rw [visit_spec k.sees k.lists he (Or.inr rfl) (by show (D.forest.at' (.attrs e)).length < n; omega), Out.ok_bind]
    show (P.viewAttrs junk ((D.forest.at' (.attrs e)).map Int.ofNat) >>= _) = _
    rw [viewAttrs_spec k ha junk _ (fun x hx => (k.lists.mem x).1 ⟨_, hx⟩) q6, Out.ok_bind,
      visit_spec k.sees k.lists he (Or.inl rfl) (by show (D.forest.at' (.kids e)).length < n; omega), Out.ok_bind]
    show (P.viewAll junk n ((D.forest.at' (.kids e)).map Int.ofNat) >>= _) = _
    rw [hb.1, viewAll_spec k ha junk ks n hb.2 (fun x hx => (k.lists.mem x).1 ⟨.kids e, by rw [hb.1]; exact hx⟩) q7 (by omega), Out.ok_bind, viewValue_spec k ha he q5, Out.ok_bind]
    unfold nodeOf
    rw [q4]; rfl
theorem viewAll_spec {P : Pool} {D : Doc} {els V fl} (k : Keeps P D els V fl) (ha : ∀ e, D.forest.Elem e → e % 4 = 0 ∧ (xalign (D.type e) = 8 → e % 8 = 0)) {txt : Data → Option CStr} (junk : Int → CStr) :
    ∀ (ks : List ETree) (fuel : Nat), D.BelowAll ks → (∀ x ∈ tops ks, x ∈ els) → D.EveryAll (D.printable txt true) (D.printable txt false) ks → D.stepsAll ks ≤ fuel →
    P.viewAll junk fuel ((tops ks).map Int.ofNat) = .ok (nodesOf D junk ks)
  | [], fuel, hb, hm, hq, hf => by
    unfold Doc.stepsAll at hf
    obtain ⟨n, rfl⟩ : ∃ n, fuel = n + 1 := ⟨fuel - 1, by omega⟩
    rfl
  | t :: ks, fuel, hb, hm, hq, hf => by
    unfold Doc.stepsAll at hf
    unfold Doc.BelowAll at hb
    unfold Doc.EveryAll at hq
    obtain ⟨n, rfl⟩ : ∃ n, fuel = n + 1 := ⟨fuel - 1, by omega⟩
    show P.viewAll junk (n + 1) ((t.top : Int) :: (tops ks).map Int.ofNat) = _
    unfold Pool.viewAll nodesOf
    rw [view_spec k ha junk t n hb.1 (hm _ (by simp [tops])) hq.1 (by omega), Out.ok_bind,
      viewAll_spec k ha junk ks n hb.2 (fun x hx => hm x (by simp only [tops, List.map_cons] at hx ⊢; exact List.mem_cons_of_mem _ hx)) hq.2 (by omega), Out.ok_bind]
    rfl
end

/-! ### the printed text -/

/-- the attributes as they are printed -/
def renderXmlAttrs (D : Doc) (txt : Data → Option CStr) : List Nat → CStr
  | [] => []
  | a :: as => ' ' :: D.nameText false a ++ '=' :: '"' :: escText (D.xmlOf txt a) ++ '"' :: renderXmlAttrs D txt as

mutual
/-- a tree as it is printed -/
def renderXml (D : Doc) (txt : Data → Option CStr) : ETree → Nat → CStr
  | .node e ks, deep =>
    tabs deep ++ '<' :: D.nameText true e ++ renderXmlAttrs D txt (D.forest.at' (.attrs e)) ++
      if ks.isEmpty then
        if D.type e = NULL then ['/', '>', '\n'] else '>' :: escText (D.xmlOf txt e) ++ '<' :: '/' :: D.nameText true e ++ ['>', '\n']
      else
        '>' :: '\n' :: renderXmls D txt ks (deep + 1) ++ (if D.type e = NULL then [] else tabs (deep + 1) ++ escText (D.xmlOf txt e) ++ ['\n']) ++ tabs deep ++ '<' :: '/' :: D.nameText true e ++ ['>', '\n']
def renderXmls (D : Doc) (txt : Data → Option CStr) : List ETree → Nat → CStr
  | [], _ => []
  | k :: ks, deep => renderXml D txt k deep ++ renderXmls D txt ks deep
end

theorem xmlLoop_val {gm : Gm} {flt : List UInt8 → CStr} {D : Doc} {e : Nat} (hp : PrintVal (valueText gm flt) (D.type e) (D.val e)) {b : CStr} (hb : b.length = 4097) :
    Eventually fun n => xmlLoop gm flt ⟨D.type e, readable (D.type e) (D.val e)⟩ n 0 b = .ok (escText (D.xmlOf (valueText gm flt) e)) := by
  obtain ⟨s, hs⟩ := Option.isSome_iff_exists.1 hp.2
  unfold Doc.xmlOf
  rw [hs, Option.getD_some]
  rw [← valueText_readable] at hs
  refine xmlLoop_text hs (fun h => ?_) hb
  rw [show (⟨D.type e, readable (D.type e) (D.val e)⟩ : Data).bytes = readable (D.type e) (D.val e) from rfl, show D.type e = STRING from h]
  have : cPrefix (readable STRING (D.val e)) = cPrefix (D.val e) := takeWhile_stop _ _ _ _ (fun x hx => by simpa using cPrefix_noNul (D.val e) x hx) (by simp)
  rw [this]
  show _ ≠ (cPrefix (D.val e) ++ [0]).length
  simp

theorem streamAttrs_spec {gm : Gm} {flt : List UInt8 → CStr} {D : Doc} {junk : Int → CStr} (hj : ∀ x, (junk x).length = 4097) : ∀ l : List Nat, (∀ a ∈ l, D.printable (valueText gm flt) false a) →
    Eventually fun n => streamAttrs ⟨gm, flt, n⟩ (l.map (attrNode D junk)) = .ok (renderXmlAttrs D (valueText gm flt) l)
  | [], _ => ⟨0, fun _ _ => rfl⟩
  | a :: l, hp => by
    have hpa := hp a (by simp)
    refine ((xmlLoop_val hpa.2.2.2.2 (hj a)).and (streamAttrs_spec hj l (fun x hx => hp x (List.mem_cons_of_mem _ hx)))).mono fun n ⟨h1, h2⟩ => ?_
    simp only [List.map_cons]
    unfold streamAttrs
    rw [h2]
    show (xmlLoop gm flt ⟨D.type a, readable (D.type a) (D.val a)⟩ n 0 (junk a) >>= _) = _
    rw [h1]; rfl

mutual
theorem stream_spec {gm : Gm} {flt : List UInt8 → CStr} {D : Doc} {junk : Int → CStr} (hj : ∀ x, (junk x).length = 4097) : ∀ (T : ETree) (deep sib : Nat),
    D.Every (D.printable (valueText gm flt) true) (D.printable (valueText gm flt) false) T →
    Eventually fun n => (nodeOf D junk T).stream ⟨gm, flt, n⟩ deep sib = .ok ((if deep > 0 ∧ sib = 0 then ['>', '\n'] else []) ++ renderXml D (valueText gm flt) T deep, sib + 1)
  | .node e ks, deep, sib, hq => by
    unfold Doc.Every at hq
    obtain ⟨q1, q2, q3⟩ := hq
    refine ((xmlLoop_val q1.2.2.2.2 (hj e)).and ((streamAttrs_spec hj _ q2).and (streamKids_spec hj ks (deep + 1) 0 (by omega) q3))).mono fun n ⟨h1, h2, h3⟩ => ?_
    unfold nodeOf SNode.stream renderXml
    simp only [h2, h3, Out.ok_bind]
    cases ks with
    | nil =>
      simp only [List.length_nil, Nat.add_zero, if_true, ne_eq, not_true_eq_false, false_and, if_false, List.isEmpty_nil]
      by_cases hN : D.type e = NULL
      · simp only [if_pos hN, renderXmls, Out.pure_eq, List.append_nil, List.append_assoc]
        rfl
      · simp only [if_neg hN, h1, Out.ok_bind, renderXmls, Out.pure_eq, List.append_nil, List.append_assoc]
        simp only [Doc.nameText, List.cons_append, List.append_assoc]
    | cons k ks =>
      simp only [List.length_cons, Nat.zero_add, Nat.succ_ne_zero, if_false, List.isEmpty_cons, Bool.false_eq_true]
      by_cases hN : D.type e = NULL
      · simp [hN, Doc.nameText]
      · simp [hN, h1, Doc.nameText]
theorem streamKids_spec {gm : Gm} {flt : List UInt8 → CStr} {D : Doc} {junk : Int → CStr} (hj : ∀ x, (junk x).length = 4097) : ∀ (ks : List ETree) (deep sib : Nat), 0 < deep →
    D.EveryAll (D.printable (valueText gm flt) true) (D.printable (valueText gm flt) false) ks →
    Eventually fun n => streamKids ⟨gm, flt, n⟩ (nodesOf D junk ks) deep sib = .ok ((if ks ≠ [] ∧ sib = 0 then ['>', '\n'] else []) ++ renderXmls D (valueText gm flt) ks deep, sib + ks.length)
  | [], deep, sib, _, _ => ⟨0, fun n _ => by simp [nodesOf, streamKids, renderXmls]⟩
  | k :: ks, deep, sib, hd, hq => by
    unfold Doc.EveryAll at hq
    refine ((stream_spec hj k deep sib hq.1).and (streamKids_spec hj ks deep (sib + 1) hd hq.2)).mono fun n ⟨h1, h2⟩ => ?_
    unfold nodesOf streamKids
    rw [h1, Out.ok_bind]
    simp only
    rw [h2, Out.ok_bind]
    simp [renderXmls, hd]
    omega
end

end BX
