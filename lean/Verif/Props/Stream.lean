import Verif.Props.Source
import Verif.Lemmas.StreamRead
/-
C76: a source printed as XML. Statements are about the histories `Sess` (Spec/Session.lean) of a writable document, its tree (Spec/Source.lean) and a small reader of XML (Spec/Stream.lean).
-/
namespace BX
open XBT Spec

/-! ### C76 -/

/-- C76: after any history, printing a document gives well formed XML in which a reader finds exactly the tree of the document: every element with its name, its attributes in order with their
values, its children in order and its text (without the white space around it), if names can be written in tags and the values have texts; `junk` is what the buffers contain before. -/
theorem C76_document_partial (E : Env) (maxSize : Nat) (h1 : 0x4000 ≤ maxSize) (h2 : maxSize < 2147483648) (P : Pool) (D : Doc) (h : Sess E maxSize P D) (T : ETree) (hT : D.forest.Elem T.top)
    (hb : D.Below T) (hr : D.root = T.top) (gm : Gm) (flt : List UInt8 → CStr) (hq : D.Every (D.printable (valueText gm flt) true) (D.printable (valueText gm flt) false) T) (junk : Int → CStr)
    (hj : ∀ x, (junk x).length = 4097) : Eventually fun fuel => ∃ s, P.print gm flt junk fuel = .ok s ∧ readDoc s = some (D.toks (valueText gm flt) T) := by
  obtain ⟨els, V, fl, k⟩ := sess_keeps h1 h2 h
  have ha := sess_aligned h1 h2 h
  have hm := (k.lists.mem _).1 hT
  have hroot : P.root = T.top := by rw [k.root, hr]
  have hnz : P.root ≠ 0 := by have := k.sees.lt hm; omega
  refine (Eventually.and ⟨D.steps T, fun m hf => view_spec k ha junk T m hb hm hq hf⟩ (stream_spec hj T 0 0 hq)).mono fun fuel ⟨g1, g2⟩ => ⟨renderXml D (valueText gm flt) T 0, ?_, ?_⟩
  · unfold Pool.print SNode.print
    rw [if_neg hnz, hroot, g1, Out.ok_bind, g2]
    rfl
  · obtain ⟨ts, h3, h4⟩ := read_render (gm := gm) (flt := flt) T 0 [] (by simp) hq
    unfold readDoc
    rw [h3]
    have := decode_append h4 (decode_blank blank_nl)
    simpa using this

/-- C76: an element without attributes and children is printed as its name and its whole text, with entities for the characters of markup and nothing else changed. -/
theorem C76_leaf_partial (E : Env) (maxSize : Nat) (h1 : 0x4000 ≤ maxSize) (h2 : maxSize < 2147483648) (P : Pool) (D : Doc) (h : Sess E maxSize P D) (e : Nat) (hT : D.forest.Elem e)
    (hk : D.forest.at' (.kids e) = []) (ha : D.forest.at' (.attrs e) = []) (hr : D.root = e) (gm : Gm) (flt : List UInt8 → CStr) (hq : D.printable (valueText gm flt) true e) (ht : D.type e ≠ NULL)
    (junk : Int → CStr) (hj : ∀ x, (junk x).length = 4097) : Eventually fun fuel => ∃ s, readXml s = some (D.xmlOf (valueText gm flt) e) ∧ '<' ∉ s ∧
      P.print gm flt junk fuel = .ok ('<' :: D.nameText true e ++ '>' :: s ++ '<' :: '/' :: D.nameText true e ++ ['>', '\n']) := by
  obtain ⟨els, V, fl, k⟩ := sess_keeps h1 h2 h
  have hal := sess_aligned h1 h2 h
  have hm := (k.lists.mem _).1 hT
  have hroot : P.root = e := by rw [k.root, hr]
  have hnz : P.root ≠ 0 := by have := k.sees.lt hm; omega
  have hq' : D.Every (D.printable (valueText gm flt) true) (D.printable (valueText gm flt) false) (.node e []) := ⟨hq, by rw [ha]; simp, trivial⟩
  have hb : D.Below (.node e []) := ⟨by rw [hk]; rfl, trivial⟩
  refine (Eventually.and ⟨D.steps (.node e []), fun m hf => view_spec k hal junk (.node e []) m hb hm hq' hf⟩ (stream_spec hj (.node e []) 0 0 hq')).mono fun fuel ⟨g1, g2⟩ =>
    ⟨escText (D.xmlOf (valueText gm flt) e), readXml_escText _, (escText_clean _).1, ?_⟩
  unfold Pool.print SNode.print
  rw [if_neg hnz, hroot, show ((e : Nat) : Int) = ((ETree.node e []).top : Int) from rfl, g1, Out.ok_bind, g2, Out.ok_bind]
  unfold renderXml
  rw [ha]
  simp [renderXmlAttrs, ht, tabs]

theorem tok_texts {n : CStr} : ∀ (l as : List (CStr × CStr)), (∀ a ∈ l, a.1 ≠ [] ∧ ∀ c ∈ a.1, special c = false) →
    Tok.scan (inTok n as) (l.flatMap fun a => ' ' :: a.1 ++ '=' :: '"' :: escText a.2 ++ ['"']) = some (inTok n (as ++ l.map fun a => (a.1, escText a.2)), [])
  | [], as, _ => by simp [Tok.scan]
  | p :: ps, as, h => by
    obtain ⟨g1, g2⟩ := h p (by simp)
    obtain ⟨h2, h3⟩ := escText_clean p.2
    have ih := tok_texts (n := n) ps (as ++ [(p.1, escText p.2)]) fun q hq => h q (by simp [hq])
    have hin : TokAt.inside n (as ++ [(p.1, escText p.2)]) = inTok n (as ++ [(p.1, escText p.2)]) := by simp [inTok]
    rw [List.flatMap_cons, show ∀ x : CStr, (' ' :: p.1 ++ '=' :: '"' :: escText p.2 ++ ['"']) ++ x = (' ' :: p.1 ++ '=' :: '"' :: escText p.2) ++ '"' :: x by intro x; simp]
    refine tok_append (ts := []) (q' := .value n as p.1 (escText p.2)) ?_ ?_
    · refine tok_append (ts := []) (us := []) (q' := .attr n as p.1) ?_ ?_
      · refine tok_cons (ts := []) (inTok_space n as) ?_
        have := tok_attr (n := n) (as := as) (a := []) g2
        simpa using this
      · refine tok_cons (ts := []) (q' := .eq n as p.1) (by simp [Tok.step, g1]) (tok_cons (ts := []) (q' := .value n as p.1 []) rfl ?_)
        have := tok_value (n := n) (as := as) (a := p.1) (v := []) h3 h2
        simpa using this
    · refine tok_cons (ts := []) (q' := .inside n (as ++ [(p.1, escText p.2)])) rfl ?_
      rw [hin, ih]
      simp

theorem streamAttrs_texts (v : StreamEnv) : ∀ as : List (BStr × CStr),
    streamAttrs v (as.map fun a => (a.1, .text (some a.2))) = .ok ((as.map fun a => (toC a.1, a.2)).flatMap fun a => ' ' :: a.1 ++ '=' :: '"' :: escText a.2 ++ ['"'])
  | [] => rfl
  | a :: as => by
    have ih := streamAttrs_texts v as
    simp only [List.map_cons, streamAttrs, SAttr.stream, Out.pure_eq, Out.ok_bind, ih, List.flatMap_cons]
    simp

theorem read_tag {n : CStr} (g1 : n ≠ []) (g2 : ∀ c ∈ n, special c = false) (l : List (CStr × CStr)) (hl : ∀ a ∈ l, a.1 ≠ [] ∧ ∀ c ∈ a.1, special c = false) :
    readDoc ('<' :: n ++ (l.flatMap fun a => ' ' :: a.1 ++ '=' :: '"' :: escText a.2 ++ ['"']) ++ ['/', '>', '\n']) = some [.opened n l, .closed n] := by
  have hp := tok_texts (n := n) l [] hl
  have ho := tok_opening (t := []) g1 g2 hp 0
  rw [show tabs 0 = [] from rfl] at ho
  simp only [List.nil_append] at ho
  have hs : Tok.scan (.text []) ('<' :: n ++ (l.flatMap fun a => ' ' :: a.1 ++ '=' :: '"' :: escText a.2 ++ ['"']) ++ ['/', '>', '\n']) =
      some (.text ['\n'], [.chars []] ++ [.opened n (l.map fun a => (a.1, escText a.2)), .closed n]) := by
    refine tok_append (q' := inTok n (l.map fun a => (a.1, escText a.2))) ho ?_
    refine tok_cons (ts := []) (inTok_slash _ _) ?_
    exact tok_cons (c := '>') (q := .slash n (l.map fun a => (a.1, escText a.2))) (q' := .text []) (ts := [.opened n (l.map fun a => (a.1, escText a.2)), .closed n]) (us := []) (b := ['\n']) rfl rfl
  unfold readDoc
  rw [hs]
  show decodeAll ([.chars []] ++ [.opened n (l.map fun a => (a.1, escText a.2)), .closed n] ++ [.chars ['\n']]) = _
  have e1 : decodeAll [.chars []] = some [] := decode_blank (by simp)
  have e2 : decodeAll [.opened n (l.map fun a => (a.1, escText a.2)), .closed n] = some [.opened n l, .closed n] := decode_append (decode_opened l) decode_closed
  exact decode_append (decode_append e1 e2) (decode_blank blank_nl)

/-- C76: texts of attributes, as XML and JSON sources give them, are printed so that a reader finds them again, whatever characters they have. (Elements without children; see
`C76_values_false` and `C76_children_false` for the others.) -/
theorem C76_texts_partial (v : StreamEnv) (name : BStr) (hn : Spec.GoodName name) (value : SVal) (as : List (BStr × CStr)) (ha : ∀ a ∈ as, Spec.GoodName a.1) :
    ∃ s, (textView (.mk name value (as.map fun a => (a.1, .text a.2)) [])).print v = .ok s ∧ readDoc s = some [.opened (toC name) (as.map fun a => (toC a.1, a.2)), .closed (toC name)] := by
  refine ⟨_, ?_, read_tag (toC_ne hn.1) hn.2 (as.map fun a => (toC a.1, a.2)) (fun a h => by
    obtain ⟨b, hb, rfl⟩ := List.mem_map.1 h
    exact ⟨toC_ne (ha b hb).1, (ha b hb).2⟩)⟩
  unfold textView textViewAll SNode.print SNode.stream streamKids
  rw [List.map_map]
  have := streamAttrs_texts v as
  simp only [Function.comp_def]
  rw [this, Out.ok_bind]
  simp [tabs, Out.pure_eq, Out.ok_bind]

example (v : StreamEnv) : ∃ s, (textView (.mk (b8 "o") .none [(b8 "n", .text "a<\"b\"".toList), (b8 "q", .text [])] [])).print v = .ok s ∧
    readDoc s = some [.opened ['o'] [(['n'], "a<\"b\"".toList), (['q'], [])], .closed ['o']] :=
  C76_texts_partial v (b8 "o") (by unfold Spec.GoodName; decide) .none [(b8 "n", "a<\"b\"".toList), (b8 "q", [])] (by unfold Spec.GoodName; decide)

/-- C76 is false for blocks of hexadecimal digits: a value of one byte or more is printed with NUL characters, which no XML may have. -/
theorem C76_hex_false (gm : Gm) (flt : List UInt8 → CStr) (bs : List UInt8) (h : bs ≠ []) (b : CStr) (hb : b.length = 4097) (fuel : Nat) (out : CStr)
    (ho : xmlLoop gm flt ⟨HEX, le32 (bs.length : Int) ++ bs⟩ fuel 0 b = .ok out) : '\x00' ∈ out := by
  cases fuel with
  | zero => cases ho
  | succ n =>
    unfold xmlLoop at ho
    have hd : (le32 (bs.length : Int) ++ bs).drop 4 = bs := by
      rw [show 4 = (le32 (bs.length : Int)).length from rfl, List.drop_left]
    have hl : ¬ bs.length ≤ 0 := fun h0 => h (List.eq_nil_of_length_eq_zero (by omega))
    have hc : chunkOnce gm flt ⟨HEX, le32 (bs.length : Int) ++ bs⟩ 0 b = .ok ((hex2Str (bs.take 16)).length + 2, (bs.take 16).length, bufPut (bufPut b (b.length - 1) ['\x00']) 0 (hex2Str (bs.take 16) ++ ['\n', '\x00'])) := by
      unfold chunkOnce chunkHex
      simp only [hd, if_neg hl, List.drop_zero, Nat.zero_add]
    rw [hc, Out.ok_bind] at ho
    simp only [Nat.succ_ne_zero, if_false] at ho
    obtain ⟨s, -, hs⟩ := Out.bind_eq_ok ho
    cases hs
    apply List.mem_append_left
    rw [show (hex2Str (bs.take 16)).length + 2 = (hex2Str (bs.take 16) ++ ['\n', '\x00']).length by simp, put_take', escText_append]
    exact List.mem_append_right _ (by decide)

/-- C76 is false for XML and JSON sources: whatever texts their elements have, the same is printed. -/
theorem C76_values_false (v : StreamEnv) (n : BStr) (x y : SVal) (ps : List (BStr × SVal)) (ks : List Elem) :
    (textView (.mk n x ps ks)).print v = (textView (.mk n y ps ks)).print v := by
  unfold textView; rfl

/-- C76 is false for XML and JSON sources with more than one element: printing an element that has children never succeeds. -/
theorem C76_children_false (v : StreamEnv) (n : BStr) (x : SVal) (ps : List (BStr × SVal)) (k : Elem) (ks : List Elem) (s : CStr) : (textView (.mk n x ps (k :: ks))).print v ≠ .ok s := by
  intro h
  unfold textView SNode.print at h
  obtain ⟨r, h, -⟩ := Out.bind_eq_ok h
  unfold SNode.stream at h
  obtain ⟨as, -, h⟩ := Out.bind_eq_ok h
  obtain ⟨kr, hk, h⟩ := Out.bind_eq_ok h
  have step : ∀ (e : SNode) (deep i : Nat) (r : CStr × Nat), e.stream v deep i = .ok r → r.2 = i + 1 := by
    rintro ⟨n, at', t, w, kids⟩ deep i r h
    unfold SNode.stream at h
    obtain ⟨_, _, h⟩ := Out.bind_eq_ok h
    obtain ⟨kr, _, h⟩ := Out.bind_eq_ok h
    by_cases h0 : kr.2 = 0
    · simp only [if_pos h0] at h
      cases w with
      | none => cases h; rfl
      | some d => obtain ⟨_, _, h⟩ := Out.bind_eq_ok h; cases h; rfl
    · simp only [if_neg h0] at h
      by_cases ht : t = NULL
      · simp only [if_pos ht] at h; cases h; rfl
      · simp only [if_neg ht] at h
        obtain ⟨_, _, h⟩ := Out.bind_eq_ok h; cases h; rfl
  have all : ∀ (l : List SNode) (deep i : Nat) (r : CStr × Nat), streamKids v l deep i = .ok r → r.2 = i + l.length := by
    intro l
    induction l with
    | nil => intro deep i r h; unfold streamKids at h; cases h; rfl
    | cons e l ih =>
      intro deep i r h
      unfold streamKids at h
      obtain ⟨a, h1, h⟩ := Out.bind_eq_ok h
      obtain ⟨b, h2, h⟩ := Out.bind_eq_ok h
      cases h
      have := step _ _ _ _ h1
      have := ih _ _ _ h2
      simp only [List.length_cons]; omega
  have hn : kr.2 ≠ 0 := by
    have := all _ _ _ _ hk
    unfold textViewAll at this
    simp only [List.length_cons] at this
    omega
  simp only [if_neg hn, if_neg (show ¬ UNKNOWN = NULL by decide)] at h
  obtain ⟨q, h, -⟩ := Out.bind_eq_ok h
  cases hf : v.fuel with
  | zero => rw [hf] at h; cases h
  | succ m =>
    rw [hf] at h
    unfold xmlLoop at h
    obtain ⟨c, h, -⟩ := Out.bind_eq_ok h
    have hx : chunkOnce v.gm v.flt ⟨UNKNOWN, []⟩ 0 [] = .fail := rfl
    rw [hx] at h
    cases h

/-- C76 is false for an attribute for which a source gives no text: printing it uses a null pointer. -/
theorem C76_null_false (v : StreamEnv) (n a : BStr) (t : XBT) (w : Option (Data × CStr)) (ks : List SNode) (as : List (BStr × SAttr)) :
    (SNode.mk n ((a, .text none) :: as) t w ks).print v = .ub := rfl

/-- C76 is false for a document without a root element: printing it uses a null pointer. -/
theorem C76_empty_false (n : Nat) (gm : Gm) (flt : List UInt8 → CStr) (junk : Int → CStr) (fuel : Nat) : (Pool.empty n).print gm flt junk fuel = .ub := rfl

/-- C76 is false for names with characters of markup: they are printed as they are. -/
theorem C76_name_false (v : StreamEnv) : (SNode.mk (b8 "a/><b") [] NULL none []).print v = .ok ("<a/><b/>\n".toList) ∧
    readDoc ("<a/><b/>\n".toList) = some [.opened ['a'] [], .closed ['a'], .opened ['b'] [], .closed ['b']] := by
  refine ⟨?_, by decide +kernel⟩
  show (Out.ok _ : Out CStr) = _
  decide +revert

/-! ### an example -/

def print1 : Pool := poolOf ((desk6 INT32).make demoEnv 0 STRING 3 (tagFlag true) (sizeField STRING 0).length (b8 "a<b" ++ [0]))
def print2 : Pool := poolOf (print1.make demoEnv 1 INT32 0 (tagFlag false) (sizeField INT32 0).length (le32 7))
def print3 : Pool := poolOf (print2.make demoEnv 0 INT64 0 (tagFlag true) (sizeField INT64 0).length ([0, 0xf2, 5, 0x2a, 1, 0, 0, 0]))
def print4 : Pool := poolOf' (print3.add 140 (some 164))
def print5 : Pool := poolOf' (print4.add 140 (some 224))
def print6 : Pool := poolOf' (print5.add 164 (some 192))
def print7 : Pool := poolOf' (print6.setRoot (some 140))
def printTree : ETree := .node 140 [.node 164 [], .node 224 []]

theorem print_runs : madeAt ((desk6 INT32).make demoEnv 0 STRING 3 (tagFlag true) (sizeField STRING 0).length (b8 "a<b" ++ [0])) 164 = true ∧
    madeAt (print1.make demoEnv 1 INT32 0 (tagFlag false) (sizeField INT32 0).length (le32 7)) 192 = true ∧
    madeAt (print2.make demoEnv 0 INT64 0 (tagFlag true) (sizeField INT64 0).length ([0, 0xf2, 5, 0x2a, 1, 0, 0, 0])) 224 = true ∧
    wasOk ((ListOp.add 140 164).run print3) = true ∧ wasOk ((ListOp.add 140 224).run print4) = true ∧ wasOk ((ListOp.add 164 192).run print5) = true ∧ wasOk (print6.setRoot (some 140)) = true := by decide +kernel

theorem print_int64 (gm : Gm) (flt : List UInt8 → CStr) : valueText gm flt ⟨INT64, [0, 0xf2, 5, 0x2a, 1, 0, 0, 0]⟩ = some "5000000000".toList := by
  have h : printInt64Chunk (rdI64 [0, 0xf2, 5, 0x2a, 1, 0, 0, 0]) = .ok "5000000000".toList := by decide +kernel
  have h' : chunkText gm flt INT64 [0, 0xf2, 5, 0x2a, 1, 0, 0, 0] = printInt64Chunk (rdI64 [0, 0xf2, 5, 0x2a, 1, 0, 0, 0]) := rfl
  unfold valueText
  simp only [h', h]
  rfl

theorem print_int32 (gm : Gm) (flt : List UInt8 → CStr) : valueText gm flt ⟨INT32, le32 7⟩ = some ['7'] := by
  have h : printInt (rdI32 (le32 7)) = ['7'] := by decide +kernel
  have h' : chunkText gm flt INT32 (le32 7) = .ok (printInt (rdI32 (le32 7))) := rfl
  unfold valueText
  simp only [h', h]
  rfl

theorem print_toks {D : Doc} {txt : Data → Option CStr} (a1 : D.forest.at' (.attrs 140) = []) (a2 : D.forest.at' (.attrs 164) = [192]) (a3 : D.forest.at' (.attrs 224) = [])
    (n1 : D.nameText true 140 = ['o']) (n2 : D.nameText true 164 = ['i']) (n3 : D.nameText true 224 = ['i']) (n4 : D.nameText false 192 = ['q']) (t1 : D.xmlOf txt 140 = [])
    (t2 : D.xmlOf txt 164 = ['a', '<', 'b']) (t3 : D.xmlOf txt 192 = ['7']) (t4 : D.xmlOf txt 224 = "5000000000".toList) :
    D.toks txt printTree = [.opened ['o'] [], .opened ['i'] [(['q'], ['7'])], .chars ['a', '<', 'b'], .closed ['i'], .opened ['i'] [], .chars "5000000000".toList, .closed ['i'], .closed ['o']] := by
  unfold printTree
  simp only [Doc.toks, Doc.toksAll, a1, a2, a3, n1, n2, n3, n4, t1, t2, t3, t4, List.map_cons, List.map_nil]
  decide +kernel

set_option maxHeartbeats 4000000 in
/-- the hypotheses of C76 are met by a document with a text with markup, an attribute and a number of eight bytes -/
theorem print_sess' (gm : Gm) (flt : List UInt8 → CStr) : ∃ D, Sess demoEnv 0x8000 print7 D ∧ (D.ready true = true ∧ D.ready false = true ∧ D.syms true = deskDoc.syms true ∧ D.syms false = deskDoc.syms false) ∧ D.forest.Elem 140 ∧ D.Below printTree ∧ D.root = 140 ∧
    D.Every (D.printable (valueText gm flt) true) (D.printable (valueText gm flt) false) printTree ∧
    D.toks (valueText gm flt) printTree = [.opened ['o'] [], .opened ['i'] [(['q'], ['7'])], .chars ['a', '<', 'b'], .closed ['i'], .opened ['i'] [], .chars "5000000000".toList, .closed ['i'], .closed ['o']] := by
  have r6 : (desk5 INT32).make demoEnv 1 NULL 0 (tagFlag true) (sizeField NULL 0).length [] = .ok (desk6 INT32, some 140) := madeAt_eq box_runs.1
  obtain ⟨r7, r8, r9, r10, r11, r12, r13⟩ := print_runs
  replace r7 : (desk6 INT32).make demoEnv 0 STRING 3 (tagFlag true) (sizeField STRING 0).length (b8 "a<b" ++ [0]) = .ok (print1, some 164) := madeAt_eq r7
  replace r8 : print1.make demoEnv 1 INT32 0 (tagFlag false) (sizeField INT32 0).length (le32 7) = .ok (print2, some 192) := madeAt_eq r8
  replace r9 : print2.make demoEnv 0 INT64 0 (tagFlag true) (sizeField INT64 0).length ([0, 0xf2, 5, 0x2a, 1, 0, 0, 0]) = .ok (print3, some 224) := madeAt_eq r9
  replace r10 : (ListOp.add 140 164).run print3 = .ok print4 := wasOk_eq r10
  replace r11 : (ListOp.add 140 224).run print4 = .ok print5 := wasOk_eq r11
  replace r12 : (ListOp.add 164 192).run print5 = .ok print6 := wasOk_eq r12
  replace r13 : print6.setRoot (some 140) = .ok print7 := wasOk_eq r13
  have s6 := Sess.made (k := 0) desk_doc ⟨by decide, by decide⟩ (by decide) r6 rfl
  have s7 := Sess.made (k := 1) s6 ⟨by decide, by decide⟩ (by decide) r7 rfl
  have s8 := Sess.made (k := 2) s7 ⟨by decide, by decide⟩ (by decide) r8 rfl
  have s9 := Sess.made (k := 3) s8 ⟨by decide, by decide⟩ (by decide) r9 rfl
  have s10 := Sess.step s9 (Step.add (k := 1) ⟨.loose 0, by decide⟩ (by decide)) r10
  have s11 := Sess.step s10 (Step.add (k := 3) ⟨.loose 0, by decide⟩ (by decide)) r11
  have s12 := Sess.step s11 (Step.add (k := 2) ⟨.kids 140, by decide⟩ (by decide)) r12
  have s13 := Sess.rooted s12 (e := 140) ⟨.loose 0, by decide⟩ r13
  have gn : ∀ n : BStr, n ∈ [b8 "o", b8 "i", b8 "q"] → Spec.GoodName n := by unfold Spec.GoodName; decide
  have g1 : PrintVal (valueText gm flt) NULL [] := ⟨Or.inl rfl, rfl⟩
  have g2 : PrintVal (valueText gm flt) STRING (b8 "a<b" ++ [0]) := ⟨Or.inl (show (0 : UInt8) ∈ b8 "a<b" ++ [0] by decide), rfl⟩
  have g3 : PrintVal (valueText gm flt) INT64 [0, 0xf2, 5, 0x2a, 1, 0, 0, 0] := ⟨Or.inl rfl, by rw [print_int64]; rfl⟩
  have g4 : PrintVal (valueText gm flt) INT32 (le32 7) := ⟨Or.inl rfl, rfl⟩
  refine ⟨_, s13, ⟨rfl, rfl, rfl, rfl⟩, ⟨.loose 0, by decide⟩, ⟨by decide, ⟨by decide, trivial⟩, ⟨by decide, trivial⟩, trivial⟩, by decide,
    ⟨⟨by decide, by decide, by decide, ⟨b8 "o", by decide, gn _ (by decide)⟩, g1⟩, fun a ha => absurd (show a ∈ [] from ha) (by simp),
      ⟨⟨by decide, by decide, by decide, ⟨b8 "i", by decide, gn _ (by decide)⟩, g2⟩, fun a ha => ?_, trivial⟩,
      ⟨⟨by decide, by decide, by decide, ⟨b8 "i", by decide, gn _ (by decide)⟩, g3⟩, fun a ha => absurd (show a ∈ [] from ha) (by simp), trivial⟩, trivial⟩, ?_⟩
  · have : a = 192 := by simpa using (show a ∈ [192] from ha)
    subst this
    exact ⟨by decide, by decide, by decide, ⟨b8 "q", by decide, gn _ (by decide)⟩, g4⟩
  · exact print_toks rfl rfl rfl rfl rfl rfl rfl rfl (show (valueText gm flt ⟨STRING, b8 "a<b" ++ [0]⟩).getD [] = _ from rfl) (show (valueText gm flt ⟨INT32, le32 7⟩).getD [] = _ by rw [print_int32]; rfl)
      (show (valueText gm flt ⟨INT64, [0, 0xf2, 5, 0x2a, 1, 0, 0, 0]⟩).getD [] = _ by rw [print_int64]; rfl)

theorem print_sess (gm : Gm) (flt : List UInt8 → CStr) : ∃ D, Sess demoEnv 0x8000 print7 D ∧ D.forest.Elem 140 ∧ D.Below printTree ∧ D.root = 140 ∧
    D.Every (D.printable (valueText gm flt) true) (D.printable (valueText gm flt) false) printTree ∧
    D.toks (valueText gm flt) printTree = [.opened ['o'] [], .opened ['i'] [(['q'], ['7'])], .chars ['a', '<', 'b'], .closed ['i'], .opened ['i'] [], .chars "5000000000".toList, .closed ['i'], .closed ['o']] :=
  let ⟨D, h, _, r⟩ := print_sess' gm flt
  ⟨D, h, r⟩

/-- the document `<o><i q="7">a&lt;b</i><i>5000000000</i></o>` is printed so that a reader sees it -/
example (gm : Gm) (flt : List UInt8 → CStr) : ∃ fuel s, print7.print gm flt (fun _ => List.replicate 4097 '?') fuel = .ok s ∧
    readDoc s = some [.opened ['o'] [], .opened ['i'] [(['q'], ['7'])], .chars ['a', '<', 'b'], .closed ['i'], .opened ['i'] [], .chars "5000000000".toList, .closed ['i'], .closed ['o']] := by
  obtain ⟨D, h, a1, a2, a3, a4, a5⟩ := print_sess gm flt
  obtain ⟨n, hn⟩ := C76_document_partial demoEnv 0x8000 (by decide) (by decide) print7 D h printTree a1 a2 a3 gm flt a4 (fun _ => List.replicate 4097 '?') (fun _ => List.length_replicate)
  obtain ⟨s, h1, h2⟩ := hn n (Nat.le_refl _)
  exact ⟨n, s, h1, by rw [h2, a5]⟩

end BX
