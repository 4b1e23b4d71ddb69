import Verif.Spec.XmlSource
import Verif.Props.Room
/-
C75: an XML document as the source of a conversion.
-/
namespace BX
open XBT Spec

theorem skipSpaces_eq (s : CStr) : skipSpaces s = s.dropWhile isSpace := by
  induction s with
  | nil => rfl
  | cons c cs ih =>
    unfold skipSpaces
    rw [List.dropWhile_cons]
    split
    · exact ih
    · rfl

theorem dropWhile_blank {s : CStr} (h : ∀ c ∈ s, isSpace c = true) : s.dropWhile isSpace = [] := by
  induction s with
  | nil => rfl
  | cons c cs ih => rw [List.dropWhile_cons, if_pos (h c (List.mem_cons_self ..))]; exact ih fun d hd => h d (List.mem_cons_of_mem _ hd)

theorem trim_blank {s : CStr} (h : ∀ c ∈ s, isSpace c = true) : trim s = [] := by
  unfold trim; rw [dropWhile_blank h]; rfl

theorem trim_app {s w : CStr} (h : ∀ c ∈ w, isSpace c = true) : trim (s ++ w) = trim s := by
  unfold trim
  rw [List.dropWhile_append]
  split
  next he =>
    rw [dropWhile_blank h, List.isEmpty_iff.1 he]
  next he =>
    rw [List.reverse_append, List.dropWhile_append, dropWhile_blank (s := w.reverse) (fun c hc => h c (List.mem_reverse.1 hc))]
    rfl

theorem dropWhile_twice (s : CStr) : (s.dropWhile isSpace).dropWhile isSpace = s.dropWhile isSpace := by
  induction s with
  | nil => rfl
  | cons c cs ih =>
    rw [List.dropWhile_cons]
    split
    · exact ih
    next hc => rw [List.dropWhile_cons, if_neg hc]

theorem trim_drop (s : CStr) : trim (s.dropWhile isSpace) = trim s := by
  unfold trim; rw [dropWhile_twice]

theorem dropWhile_space_head {s : CStr} {c : Char} {cs : CStr} (h : s.dropWhile isSpace = c :: cs) : isSpace c = false := by
  induction s with
  | nil => cases h
  | cons d ds ih =>
    rw [List.dropWhile_cons] at h
    split at h
    · exact ih h
    next hc => cases h; simpa using hc

theorem trim_ne {s : CStr} (h : s.dropWhile isSpace ≠ []) : trim s ≠ [] := by
  unfold trim
  cases hd : s.dropWhile isSpace with
  | nil => exact absurd hd h
  | cons c cs =>
    have hc := dropWhile_space_head hd
    intro he
    rw [List.reverse_eq_nil_iff, List.reverse_cons, List.dropWhile_append] at he
    split at he
    · rw [List.dropWhile_cons, if_neg (by simp [hc])] at he; cases he
    · exact absurd he (by simp)

theorem flat_blank {xs : List XNode} (h : ∀ x ∈ xs, ∀ c ∈ ownText x, isSpace c = true) : ∀ c ∈ charData xs, isSpace c = true := by
  intro c hc
  unfold charData at hc
  obtain ⟨l, hl, hc⟩ := List.mem_flatten.1 hc
  obtain ⟨x, hx, rfl⟩ := List.mem_map.1 hl
  exact h x hx c hc

theorem xmlValue_shows {xs : List XNode} (h : PlainText xs) : ShowsText (charData xs) (xmlValue xs) := by
  have hno : (∀ x ∈ xs, ∀ c ∈ ownText x, isSpace c = true) → xmlValue xs = .none → ShowsText (charData xs) (xmlValue xs) := by
    intro hb hv
    rw [hv]
    exact trim_blank (flat_blank hb)
  cases xs with
  | nil => exact hno h rfl
  | cons x xs =>
    cases x with
    | elem => exact hno h rfl
    | cdata => exact hno h rfl
    | other => exact hno h rfl
    | text s =>
      unfold PlainText at h
      cases s with
      | none =>
        refine hno (fun y hy => ?_) rfl
        cases hy with
        | head => intro c hc; cases hc
        | tail _ hy => exact h y hy
      | some s =>
        have hcd : charData (.text (some s) :: xs) = s ++ charData xs := by simp [charData, ownText]
        rw [hcd]
        simp only [xmlValue, skipSpaces_eq]
        split
        next he =>
          simp only [ShowsText]
          rw [trim_app (flat_blank h)]
          unfold trim; rw [he]; rfl
        next he =>
          simp only [ShowsText]
          rw [trim_app (flat_blank h), trim_drop]
          exact ⟨trim_ne he, rfl⟩

theorem xmlProps_eq {l : List XAttr} (h : ∀ a ∈ l, a.first ≠ none) :
    xmlProps l = .ok (l.map (fun a => (a.name, match a.first with | some (some s) => SVal.text s | _ => SVal.none))) := by
  induction l with
  | nil => rfl
  | cons a as ih =>
    have ha := h a (List.mem_cons_self ..)
    unfold xmlProps
    cases hf : a.first with
    | none => exact absurd hf ha
    | some v =>
      simp only [ih fun b hb => h b (List.mem_cons_of_mem _ hb), Out.ok_bind, List.map_cons, hf]
      cases v <;> rfl

mutual
theorem xmlSource_shows (name : BStr) (ns nsDef : Option (Option CStr)) (props : List XAttr) : ∀ children : List XNode, PlainXml (.elem name ns nsDef props children) →
    ∃ e, xmlSource (.elem name ns nsDef props children) = .ok e ∧ ShowsXml (.elem name ns nsDef props children) e
  | children, h => by
    unfold PlainXml at h
    obtain ⟨h1, h2, h3⟩ := h
    obtain ⟨ks, k1, k2⟩ := xmlSources_shows children h3
    refine ⟨.mk name (xmlValue children) (xmlNs ns nsDef ++ props.map (fun a => (a.name, match a.first with | some (some s) => SVal.text s | _ => SVal.none))) ks, ?_, ?_⟩
    · unfold xmlSource xmlParams
      rw [xmlProps_eq h1, k1]
      rfl
    · unfold ShowsXml
      refine ⟨rfl, xmlValue_shows h2, ?_, k2⟩
      unfold ShowsXmlAttrs xmlNs
      cases ns with
      | some n => rfl
      | none => cases nsDef <;> rfl
theorem xmlSources_shows : ∀ xs : List XNode, PlainXmls xs → ∃ es, xmlSources xs = .ok es ∧ ShowsXmls xs es
  | [], _ => ⟨[], rfl, rfl⟩
  | .elem name ns nsDef props children :: xs, h => by
    unfold PlainXmls at h
    obtain ⟨e, a1, a2⟩ := xmlSource_shows name ns nsDef props children h.1
    obtain ⟨es, b1, b2⟩ := xmlSources_shows xs h.2
    refine ⟨e :: es, ?_, ?_⟩
    · unfold xmlSources; rw [a1, b1]; rfl
    · unfold ShowsXmls; exact ⟨e, es, rfl, a2, b2⟩
  | .text _ :: xs, h => by
    unfold PlainXmls at h
    obtain ⟨es, b1, b2⟩ := xmlSources_shows xs h.2
    exact ⟨es, by unfold xmlSources; exact b1, by unfold ShowsXmls; exact b2⟩
  | .cdata _ :: xs, h => by
    unfold PlainXmls at h
    obtain ⟨es, b1, b2⟩ := xmlSources_shows xs h.2
    exact ⟨es, by unfold xmlSources; exact b1, by unfold ShowsXmls; exact b2⟩
  | .other :: xs, h => by
    unfold PlainXmls at h
    obtain ⟨es, b1, b2⟩ := xmlSources_shows xs h.2
    exact ⟨es, by unfold xmlSources; exact b1, by unfold ShowsXmls; exact b2⟩
end

/-! ### C75 -/

/-- C75, as far as it is true: of an XML tree in which only the first node of an element has a text (white space and elements may follow) and every attribute has a
node, the creator sees exactly the elements in their order with their names, attributes (the namespace as `xmlns`) and texts. -/
theorem C75_seen_partial (name : BStr) (ns nsDef : Option (Option CStr)) (props : List XAttr) (children : List XNode) (h : PlainXml (.elem name ns nsDef props children)) :
    ∃ e, xmlSource (.elem name ns nsDef props children) = .ok e ∧ ShowsXml (.elem name ns nsDef props children) e := xmlSource_shows name ns nsDef props children h

mutual
theorem visits_elem (name : BStr) (ns nsDef : Option (Option CStr)) (props : List XAttr) : ∀ (children : List XNode) (deep : Nat),
    xmlVisits (.elem name ns nsDef props children) deep = xmlElems deep (.elem name ns nsDef props children)
  | children, deep => by
    unfold xmlVisits xmlElems
    rw [visits_all children (deep + 1)]
theorem visits_all : ∀ (xs : List XNode) (deep : Nat), xmlVisitsAll xs deep = xmlElemsAll deep xs
  | [], _ => rfl
  | .elem name ns nsDef props children :: xs, deep => by
    unfold xmlVisitsAll xmlElemsAll
    rw [visits_elem name ns nsDef props children deep, visits_all xs deep]
  | .text _ :: xs, deep => by unfold xmlVisitsAll xmlElemsAll; rw [visits_all xs deep]; simp [xmlElems]
  | .cdata _ :: xs, deep => by unfold xmlVisitsAll xmlElemsAll; rw [visits_all xs deep]; simp [xmlElems]
  | .other :: xs, deep => by unfold xmlVisitsAll xmlElemsAll; rw [visits_all xs deep]; simp [xmlElems]
end

/-- C75: going through the document visits every element once, in document order, with its depth. -/
theorem C75_visits (name : BStr) (ns nsDef : Option (Option CStr)) (props : List XAttr) (children : List XNode) :
    xmlVisits (.elem name ns nsDef props children) 0 = xmlElems 0 (.elem name ns nsDef props children) := visits_elem name ns nsDef props children 0

/-- C75 from end to end: such an XML document whose values are stored faithfully (C28), converted with enough room, is read back from the file with the
elements, attributes and texts of the XML document. -/
theorem C75_file_partial (flt : CStr → List UInt8) (hflt : ∀ s, (flt s).length = 4) (filename : BStr) (hfn : NoNul filename) (mtime : Int) (filesize : Nat) (hsz : 1024 + filesize * 4 < 2147483648) (m0 : Mem)
    (name : BStr) (ns nsDef : Option (Option CStr)) (props : List XAttr) (children : List XNode) (hx : PlainXml (.elem name ns nsDef props children)) (e : Elem)
    (he : xmlSource (.elem name ns nsDef props children) = .ok e) (hroom : needDoc filename e ≤ 1024 + filesize * 4) (hnames : NamesIn NoNul NoNul e)
    (htags : AtMost 32768 (tagOps e)) (hpars : AtMost 32768 (paramOps e)) (hdoc : TextDoc flt (docAttrType e) e) (hok : TreeOk (docAttrType e) e) (fuel : Nat) :
    ShowsXml (.elem name ns nsDef props children) e ∧ ∃ f r x, makeXb flt filename mtime filesize m0 e = .ok f ∧ f.initialize (fuel + 1) = .ok r ∧ r.root = some x ∧ Reads flt (docAttrType e) f r e x := by
  obtain ⟨e', h1, h2⟩ := C75_seen_partial name ns nsDef props children hx
  rw [he] at h1
  cases h1
  exact ⟨h2, C28_text_document_partial flt hflt filename hfn mtime filesize hsz m0 e hroom hnames htags hpars hdoc hok fuel⟩

/-- C75 is false in general: what follows the first node is never part of a value, whatever it is. -/
theorem C75_rest_false (x : XNode) (xs ys : List XNode) : xmlValue (x :: xs) = xmlValue (x :: ys) := by cases x with
  | text s => cases s <;> rfl
  | _ => rfl

/-- C75 is false in general: an element that begins with anything but a text (a comment, a CDATA section, an element) has no value. -/
theorem C75_first_false (x : XNode) (xs : List XNode) (h : ∀ s, x ≠ .text s) : xmlValue (x :: xs) = .none := by
  cases x with
  | text s => exact absurd rfl (h s)
  | _ => rfl

/-- C75 is false in general: an attribute without a node, wherever it is, makes the conversion use a null pointer. -/
theorem C75_empty_attr_false (name : BStr) (ns nsDef : Option (Option CStr)) (props : List XAttr) (children : List XNode) (h : ∃ a ∈ props, a.first = none) :
    xmlSource (.elem name ns nsDef props children) = .ub := by
  have : xmlProps props = .ub := by
    obtain ⟨a, ha, hf⟩ := h
    induction props with
    | nil => cases ha
    | cons b bs ih =>
      unfold xmlProps
      cases hb : b.first with
      | none => rfl
      | some v =>
        simp only
        cases ha with
        | head => rw [hf] at hb; cases hb
        | tail _ ha => rw [ih ha]; rfl
  unfold xmlSource xmlParams
  rw [this]
  rfl

/-- C75 is false in general: of the namespaces that an element declares the one it is in replaces all others: two elements that differ only in their
declarations are the same. -/
theorem C75_declared_false (name : BStr) (n : Option CStr) (d d' : Option (Option CStr)) (props : List XAttr) (children : List XNode) :
    xmlSource (.elem name (some n) d props children) = xmlSource (.elem name (some n) d' props children) := by
  unfold xmlSource xmlParams xmlNs
  rfl

/-! ### cases -/

/-- `<a xmlns="u" n="1">` line feed `<b>` two words `</b><!-- c --><c/>` line feed `</a>` -/
def xmlDemo : XNode :=
  .elem (b8 "a") (some (some "u".toList)) none [⟨b8 "n", some (some "1".toList)⟩]
    [.text (some "\n".toList), .elem (b8 "b") none none [] [.text (some " two words\n".toList), .text (some " ".toList)], .other, .elem (b8 "c") none none [] [], .text (some "\n".toList)]

/-- it meets the condition, and this is what the creator sees -/
example : PlainXml xmlDemo := by
  simp only [xmlDemo, PlainXml, PlainXmls, PlainText, List.forall_mem_cons, List.not_mem_nil, false_implies, implies_true, ownText]
  decide +kernel

def xmlSeen : Elem := .mk (b8 "a") .none [(b8 "xmlns", .text "u".toList), (b8 "n", .text "1".toList)] [.mk (b8 "b") (.text "two words\n".toList) [] [], .mk (b8 "c") .none [] []]

theorem xmlDemo_seen : xmlSource xmlDemo = .ok xmlSeen := by
  have h1 : xmlValue [XNode.text (some " two words\n".toList), .text (some " ".toList)] = .text "two words\n".toList := by decide +kernel
  have h2 : xmlValue [XNode.text (some "\n".toList), .elem (b8 "b") none none [] [.text (some " two words\n".toList), .text (some " ".toList)], .other, .elem (b8 "c") none none [] [], .text (some "\n".toList)] = .none := by decide +kernel
  unfold xmlDemo xmlSource
  rw [h2]
  simp only [xmlSources, xmlSource, h1, xmlParams, xmlProps, Out.ok_bind, Out.pure_eq]
  rfl

/-- it meets the conditions of `C75_file_partial` -/
example : needDoc (b8 "f") xmlSeen ≤ 1024 + 70 * 4 ∧ NamesIn NoNul NoNul xmlSeen ∧ AtMost 32768 (tagOps xmlSeen) ∧ AtMost 32768 (paramOps xmlSeen) ∧
    TextDoc (fun _ => [0,0,0,0]) (docAttrType xmlSeen) xmlSeen ∧ TreeOk (docAttrType xmlSeen) xmlSeen := by
  refine ⟨by decide +kernel, ?_, atMost_length _ _ (by decide +kernel), atMost_length _ _ (by decide +kernel), ?_, ?_⟩
  · simp only [xmlSeen, NamesIn, NamesInAll]
    decide +kernel
  · simp only [xmlSeen, TextDoc, TextDocAll]
    decide +kernel
  · simp only [xmlSeen, TreeOk, TreeOkAll]
    decide +kernel

/-- `<a>x<b/>y</a>`: the text `y` is lost -/
theorem C75_mixed_false : xmlValue [.text (some "x".toList), .elem (b8 "b") none none [] [], .text (some "y".toList)] = .text "x".toList ∧
    ¬ ShowsText (charData [.text (some "x".toList), .elem (b8 "b") none none [] [], .text (some "y".toList)]) (.text "x".toList) := by
  constructor
  · decide +kernel
  · simp only [ShowsText]; decide +kernel

/-- `<a><![CDATA[x]]></a>`: the text is lost -/
theorem C75_cdata_false : xmlValue [.cdata "x".toList] = .none ∧ ¬ ShowsText (charData [.cdata "x".toList]) .none := by
  constructor
  · decide +kernel
  · simp only [ShowsText]; decide +kernel

end BX
