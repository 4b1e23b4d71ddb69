import Verif.Lemmas.JsonTree
/-
Properties C41-C43: the JSON tokenizer and the elements the JSON plugin shows.
-/
namespace BX
open Spec

deriving instance DecidableEq for Except

/-! ### C41: counting -/

/-- C41. For every text: if the counting pass reports a number of tokens, the second pass over an array of that many tokens does not fail for lack of them, and when it succeeds, it reports the same number and has
filled exactly that many tokens. -/
theorem C41_count (js : List UInt8) (p0 : JP) (h : jsmnParse none js = .ok p0) :
    jsmnParse (some p0.count) js ≠ .error .nomem ∧ ∀ p1, jsmnParse (some p0.count) js = .ok p1 → p1.count = p0.count ∧ p1.toks.length = p0.count := by
  obtain ⟨h1, h2⟩ := JP.loop_sim p0.count js.length JP.init JP.init 0 js rfl rfl
  refine ⟨(h1 p0 h).2 (Nat.le_refl _), fun p1 hp => ?_⟩
  obtain ⟨q, hq, e1, e2⟩ := h2 p1 hp
  have : q = p0 := by
    have e : JP.loop none js.length JP.init 0 js = .ok p0 := h
    rw [e] at hq; cases hq; rfl
  subst this
  exact ⟨e1.symm, by omega⟩

/-- C41. For every text and every number of provided tokens: when the filling pass succeeds, the counting pass reports the number of tokens it has filled. -/
theorem C41_filled (js : List UInt8) (k : Nat) (p1 : JP) (h : jsmnParse (some k) js = .ok p1) :
    ∃ p0, jsmnParse none js = .ok p0 ∧ p0.count = p1.toks.length ∧ p1.count = p1.toks.length := by
  obtain ⟨-, h2⟩ := JP.loop_sim k js.length JP.init JP.init 0 js rfl rfl
  obtain ⟨q, hq, e1, e2⟩ := h2 p1 h
  exact ⟨q, hq, by omega, e2.symm⟩

/-- the hypotheses are met: five tokens -/
example : ∃ p0 p1, jsmnParse none (b8 "{\"a\": [1, \"x\\n\"]}") = .ok p0 ∧ p0.count = 5 ∧ jsmnParse (some 5) (b8 "{\"a\": [1, \"x\\n\"]}") = .ok p1 ∧ p1.toks.length = 5 :=
  ⟨⟨[], -1, 5⟩, ⟨[⟨.object, 0, 17, 1, -1⟩, ⟨.string, 2, 3, 1, 0⟩, ⟨.array, 6, 16, 2, 1⟩, ⟨.primitive, 7, 8, 0, 2⟩, ⟨.string, 11, 14, 0, 2⟩], -1, 5⟩,
    by decide +kernel, rfl, by decide +kernel, rfl⟩

/-- one token fewer is refused: the count is the least sufficient number here -/
example : jsmnParse (some 4) (b8 "{\"a\": [1, \"x\\n\"]}") = .error .nomem := by decide +kernel

/-! ### C42: spans -/

/-- C42. For every text and every number of provided tokens, the tokenizer never touches anything outside the tokens it has filled. -/
theorem C42_safe (js : List UInt8) (k : Nat) : jsmnParse (some k) js ≠ .error .ub := by
  intro h
  rcases JP.Inv.loop (k := k) js.length JP.init 0 js JP.Inv.init with ⟨e, he, hne⟩ | ⟨s', hs, -⟩
  · unfold jsmnParse at h; rw [he] at h; cases h; exact hne rfl
  · unfold jsmnParse at h; rw [hs] at h; cases h

/-- C42. For every accepted text: every token spans a range inside the text (empty only for a string), its parent is an earlier token or there is none, and it starts behind the start of its parent; tokens are in the order of
their starts. -/
theorem C42_spans (js : List UInt8) (k : Nat) (p : JP) (h : jsmnParse (some k) js = .ok p) :
    (∀ (i : Nat) (t : Tok), p.toks[i]? = some t →
      0 ≤ t.start ∧ t.start ≤ t.end_ ∧ t.end_ ≤ js.length ∧ (t.type ≠ .string → t.start < t.end_) ∧
      (t.parent = -1 ∨ ∃ q, 0 ≤ t.parent ∧ t.parent < i ∧ p.toks[t.parent.toNat]? = some q ∧ q.start < t.start)) ∧
    p.toks.Pairwise (fun a b => a.start < b.start) := by
  rcases JP.Inv.loop (k := k) js.length JP.init 0 js JP.Inv.init with ⟨e, he, hne⟩ | ⟨s', hs, hi, hc⟩
  · unfold jsmnParse at h; rw [he] at h; cases h
  · have : s' = p := by unfold jsmnParse at h; rw [hs] at h; cases h; rfl
    subst this
    refine ⟨fun i t ht => ?_, hi.sorted⟩
    obtain ⟨a1, a2, a3, a4, a5, a6⟩ := hi.fits i t ht
    have hce := hc t (List.mem_of_getElem? ht)
    rcases a5 with ⟨-, e⟩ | ⟨e1, e2⟩
    · exact absurd e hce
    refine ⟨a3, e1, by omega, fun ht' => (a6 ht').resolve_left hce, ?_⟩
    by_cases hp : t.parent = -1
    · exact Or.inl hp
    · refine Or.inr ?_
      have hil : i < s'.toks.length := (List.getElem?_eq_some_iff.1 ht).1
      obtain ⟨q, hq⟩ : ∃ q, s'.toks[t.parent.toNat]? = some q := ⟨_, List.getElem?_eq_getElem (by omega)⟩
      refine ⟨q, by omega, a2, hq, ?_⟩
      have hs := List.pairwise_iff_getElem.1 hi.sorted t.parent.toNat i (by omega) hil (by omega)
      rw [List.getElem?_eq_some_iff] at hq ht
      obtain ⟨_, rfl⟩ := hq
      obtain ⟨_, rfl⟩ := ht
      exact hs

/-- C42 for JSON documents (a JSON value with white space around it): the text is accepted, and besides what `C42_spans` says, every array and object encloses all its members, every key ends before its value starts, and
only the document itself has no parent. -/
theorem C42_nested_partial (v : JV) (w w' : BStr) (k : Nat) (hv : v.Ok) (hw : Blank w) (hw' : Blank w') (hk : v.count ≤ k) :
    ∃ p, jsmnParse (some k) (w ++ v.text ++ w') = .ok p ∧ p.toks.length = v.count ∧
      ∀ (i : Nat) (t : Tok), p.toks[i]? = some t → (i = 0 ∧ t.parent = -1) ∨
        ∃ q, 0 ≤ t.parent ∧ t.parent < i ∧ p.toks[t.parent.toNat]? = some q ∧ q.type ≠ .primitive ∧
          ((q.type = .array ∨ q.type = .object) → q.start < t.start ∧ t.end_ < q.end_) ∧ (q.type = .string → q.end_ < t.start) := by
  refine ⟨_, jsmn_doc hv hw hw' hk, by rw [JVtoks_length], fun i t ht => ?_⟩
  have hs : Seg (JVtoks v w.length (-1) 0) 0 (JVtoks v w.length (-1) 0) := fun i t h => by rw [Nat.zero_add]; exact h
  have hn := JV.nested v w.length (-1) 0 hs t (List.mem_of_getElem? ht)
  have hc := JVtoks_closed v w.length (-1) 0 (by omega) i t ht
  obtain ⟨t0, l, htl, htp⟩ := JVtoks_head v w.length (-1) 0
  rcases hn.2.2.2 with hp | ⟨q, h1, h2, h3, h4, h5⟩
  · refine Or.inl ⟨?_, hp⟩
    -- only the first token has no parent
    cases i with
    | zero => rfl
    | succ i =>
      exfalso
      cases v with
      | str s => rw [JVtoks] at ht; simp at ht
      | prim s => rw [JVtoks] at ht; simp at ht
      | arr pad es =>
        rw [JVtoks] at ht hs
        rw [List.getElem?_cons_succ] at ht
        have := (JEtoks_closed es _ 0 (0 + 1) (by omega) i t ht).2.2.1
        omega
      | obj pad ms =>
        rw [JVtoks] at ht hs
        rw [List.getElem?_cons_succ] at ht
        have := (JMtoks_closed ms _ 0 (0 + 1) (by omega) i t ht).2.2.1
        omega
  · exact Or.inr ⟨q, h1, by have := hc.2.2.2; omega, h2, h5, h3, h4⟩

/-- what is missing in `C42_nested_partial`: the tokenizer accepts texts that are no JSON documents, and there the parent of a token need not enclose it. In `{}:1` the parent of the number is the object closed before it. -/
theorem C42_false : ¬ ∀ (js : List UInt8) (k : Nat) (p : JP), jsmnParse (some k) js = .ok p →
    ∀ (t q : Tok), t ∈ p.toks → 0 ≤ t.parent → p.toks[t.parent.toNat]? = some q → (q.type = .array ∨ q.type = .object) → t.end_ ≤ q.end_ := by
  intro h
  have := h (b8 "{}:1") 2 ⟨[⟨.object, 0, 2, 1, -1⟩, ⟨.primitive, 3, 4, 0, 0⟩], 0, 2⟩ (by decide +kernel) ⟨.primitive, 3, 4, 0, 0⟩ ⟨.object, 0, 2, 1, -1⟩ (by decide) (by decide) (by decide) (by decide)
  exact absurd this (by decide)

/-- a document used in examples: ` {"files": [{"name": "a"}, 7], "n": "\u00e1" }` -/
def sampleJson : JV :=
  .obj [] (.cons [] (b8 "files") [] [32] (.arr [] (.cons [] (.obj [] (.cons [] (b8 "name") [] [32] (.str (b8 "a")) [] .nil)) [] (.cons [32] (.prim (b8 "7")) [] .nil))) []
    (.cons [32] (b8 "n") [] [32] (.str (b8 "\\u00e1")) [32] .nil))

theorem sampleJson_text : sampleJson.text = b8 "{\"files\": [{\"name\": \"a\"}, 7], \"n\": \"\\u00e1\" }" := by decide +kernel

theorem sampleJson_ok : sampleJson.Ok := by
  have plain : ∀ s : BStr, (∀ c ∈ s, c ≠ 0 ∧ c ≠ 34 ∧ c ≠ 92) → StrText s := by
    intro s
    induction s with
    | nil => exact fun _ => .nil
    | cons c s ih => exact fun h => .plain c s (h c (by simp)).1 (h c (by simp)).2.1 (h c (by simp)).2.2 (ih fun x hx => h x (by simp [hx]))
  have bl : Blank [32] := by intro c hc; simp at hc; simp [hc]
  have bn : Blank [] := by intro c hc; simp at hc
  have pr : PrimText (b8 "7") := by
    refine ⟨by decide, ?_, ?_⟩
    · intro c hc
      have : c = 55 := by simpa [b8] using hc
      subst this; decide
    · intro c hc
      have : c = 55 := by simpa [b8] using hc.symm
      subst this; decide
  refine ⟨bn, bn, plain _ (by decide), bn, bl, ⟨bn, bn, ⟨bn, bn, plain _ (by decide), bn, bl, plain _ (by decide), bn, trivial⟩, bn, bl, pr, bn, trivial⟩, bn, bl, plain _ (by decide), bn, bl, ?_, bl, trivial⟩
  exact .uni 48 48 101 49 [] (Or.inl (by decide)) (Or.inl (by decide)) (Or.inr (Or.inr (by decide))) (Or.inl (by decide)) .nil

/-- the hypotheses are met -/
example : ∃ p, jsmnParse (some 9) ([32] ++ sampleJson.text ++ []) = .ok p ∧ p.toks.length = 9 := by
  obtain ⟨p, h1, h2, -⟩ := C42_nested_partial sampleJson [32] [] 9 sampleJson_ok (by intro c hc; simp at hc; simp [hc]) (by intro c hc; simp at hc) (by decide)
  exact ⟨p, h1, h2⟩

/-! ### C43: the elements -/

/-- the opened document -/
theorem jsonInit_doc (tot : Nat → Int) (v : JV) (w w' : BStr) (hv : v.Ok) (hw : Blank w) (hw' : Blank w') :
    jsonInit tot (w ++ v.text ++ w') = .ok ⟨w ++ v.text ++ w', JVtoks v w.length (-1) 0, putTots tot 0 (JVtots v)⟩ := by
  have hp := jsmn_doc (k := v.count) hv hw hw' (Nat.le_refl _)
  obtain ⟨p0, h0, h1, -⟩ := C41_filled _ _ _ hp
  simp only [JVtoks_length] at h1
  have hs : Seg (JVtoks v w.length (-1) 0) 0 (JVtoks v w.length (-1) 0) := fun i t h => by rw [Nat.zero_add]; exact h
  unfold jsonInit
  rw [h0]
  simp only
  rw [h1, hp]
  simp only
  rw [if_neg (by omega), prepTotal_value v w.length (-1) 0 _ tot hs (by rw [JVtoks_length]; omega), Out.ok_bind]
  simp only
  rw [if_neg (by omega)]
  rfl

/-- C43. Every JSON document is opened, whatever the memory of the token array contained; the size computed for every token is the number of tokens in its span (so of its sub-tree; keys have size one). -/
theorem C43_sizes (tot : Nat → Int) (v : JV) (w w' : BStr) (hv : v.Ok) (hw : Blank w) (hw' : Blank w') :
    ∃ d, jsonInit tot (w ++ v.text ++ w') = .ok d ∧ d.toks.length = v.count ∧ d.tot JDoc.root = v.count ∧
      ∀ (i : Nat) (t : Tok), d.toks[i]? = some t → d.tot i = ((d.toks.filter fun u => decide (t.start ≤ u.start ∧ u.end_ ≤ t.end_)).length : Nat) := by
  refine ⟨_, jsonInit_doc tot v w w' hv hw hw', by rw [JVtoks_length], tots_value (tots_putTots tot 0 (JVtots v)), fun i t ht => ?_⟩
  have hi : i < v.count := by have := (List.getElem?_eq_some_iff.1 ht).1; rwa [JVtoks_length] at this
  obtain ⟨n, hn⟩ : ∃ n, (JVtots v)[i]? = some n := ⟨_, List.getElem?_eq_getElem (by rw [JVtots_length]; exact hi)⟩
  have h1 := tots_putTots tot 0 (JVtots v) i n hn
  rw [Nat.zero_add] at h1
  have h2 := JV.sizes v w.length (-1) 0 [] [] (fun u hu => by simp at hu) (fun u hu => by simp at hu) i t n ht hn
  rw [List.nil_append, List.append_nil] at h2
  simp only
  rw [h1, ← h2]
  rfl

theorem shown_doc (tot : Nat → Int) (v : JV) (w w' : BStr) (named : Prop) (hv : v.Ok) (hn : named → v.KeysNamed) (hw : Blank w) (hw' : Blank w') :
    ∃ d, jsonInit tot (w ++ v.text ++ w') = .ok d ∧ v.Shown d named none none JDoc.root := by
  refine ⟨_, jsonInit_doc tot v w w' hv hw hw', ?_⟩
  have hs : Seg (JVtoks v w.length (-1) 0) 0 (JVtoks v w.length (-1) 0) := fun i t h => by rw [Nat.zero_add]; exact h
  obtain ⟨t, l, htl, htp⟩ := JVtoks_head v w.length (-1) 0
  have h0 : (JVtoks v w.length (-1) 0)[0]? = some t := by rw [htl]; rfl
  refine JV.shown v w.length (-1) 0 none none 0 hv hn hs (tots_putTots tot 0 _) ?_ (valueTok_root h0 (by omega)) ?_ ?_
  · refine ⟨w', ?_⟩
    rw [List.append_assoc, List.drop_left]
  · intro _
    unfold JDoc.getNodeName
    rw [tok_eq h0, Out.ok_bind, if_pos (Or.inl (by omega))]
    rfl
  · rintro pad es rfl x u hx hu -
    rw [JVtoks] at htl
    cases htl
    have hl : 0 < (JVtoks (.arr pad es) w.length (-1) 0).length := by rw [JVtoks]; simp
    unfold JDoc.getNodeName
    rw [tok_eq hx, Out.ok_bind]
    simp only
    rw [if_neg (by rw [hu]; omega), hu, tok_eq h0, Out.ok_bind, if_pos rfl, if_pos (Or.inl (show (-1 : Int) < 0 by decide))]
    rfl

/-- C43. In every opened JSON document the elements show the values: a string or a primitive has its text as value and no children; enumerating the children of an array or an object calls back once for each member, in order,
with an element that shows the member. -/
theorem C43_tree (tot : Nat → Int) (v : JV) (w w' : BStr) (hv : v.Ok) (hw : Blank w) (hw' : Blank w') :
    ∃ d, jsonInit tot (w ++ v.text ++ w') = .ok d ∧ v.Shown d False none none JDoc.root :=
  shown_doc tot v w w' False hv (fun h => h.elim) hw hw'

/-- C59, for documents without an array under an empty key: a member of an object is shown under its key, an element of an array under the name made from the key of the array. -/
theorem C59_names_partial (tot : Nat → Int) (v : JV) (w w' : BStr) (hv : v.Ok) (hn : v.KeysNamed) (hw : Blank w) (hw' : Blank w') :
    ∃ d, jsonInit tot (w ++ v.text ++ w') = .ok d ∧ v.Shown d True none none JDoc.root :=
  shown_doc tot v w w' True hv (fun _ => hn) hw hw'

/-- C43. Enumerating recursively from the root calls back once for every value of the document, in the order of the text, with its depth: the elements are distinct and in ascending order. -/
theorem C43_walk (tot : Nat → Int) (v : JV) (w w' : BStr) (hv : v.Ok) (hw : Blank w) (hw' : Blank w') :
    ∃ d l, jsonInit tot (w ++ v.text ++ w') = .ok d ∧ (∀ fuel, 2 * v.count ≤ fuel → d.walk fuel JDoc.root 0 = .ok l) ∧
      l.map (·.2) = v.depths 0 ∧ (l.map (·.1)).Pairwise (· < ·) := by
  refine ⟨_, JVwalk v 0 0 0, jsonInit_doc tot v w w' hv hw hw', fun fuel hf => ?_, JVwalk_depths v 0 0 0, (JVwalk_sorted v 0 0 0 (Nat.le_refl _)).1⟩
  have hs : Seg (JVtoks v w.length (-1) 0) 0 (JVtoks v w.length (-1) 0) := fun i t h => by rw [Nat.zero_add]; exact h
  obtain ⟨t, l, htl, htp⟩ := JVtoks_head v w.length (-1) 0
  have h0 : (JVtoks v w.length (-1) 0)[0]? = some t := by rw [htl]; rfl
  exact JV.walk_eq v w.length (-1) 0 0 0 fuel hs (tots_putTots tot 0 _) (valueTok_root h0 (by omega)) hf

theorem sampleJson_named : sampleJson.KeysNamed := by
  refine ⟨fun h => absurd h (by decide), ⟨⟨fun h => absurd h (by decide), trivial, trivial⟩, trivial, trivial⟩, fun h => absurd h (by decide), trivial, trivial⟩

/-- the hypotheses are met: the root of the sample has two members, `files` with elements named `file`, the second of which has the value `7` -/
example : ∃ d a b x y, jsonInit (fun _ => 0) ([] ++ sampleJson.text ++ []) = .ok d ∧ d.children JDoc.root = .ok [a, b] ∧ d.getNodeName a = .ok (some (b8 "files")) ∧ d.children a = .ok [x, y] ∧
    d.getNodeName y = .ok (some (b8 "file")) ∧ d.getNodeValue y = .ok (some (b8 "7")) ∧ d.getNodeValue b = .ok (some (b8 "\\u00e1")) := by
  obtain ⟨d, hd, hs⟩ := C59_names_partial (fun _ => 0) sampleJson [] [] sampleJson_ok sampleJson_named (by intro c hc; simp at hc) (by intro c hc; simp at hc)
  unfold sampleJson at hs
  simp only [JV.Shown, JEs.Shown, JMs.Shown] at hs
  obtain ⟨-, -, hs, hc, -, a, hs', rfl, ⟨ha, -, xs, hxs, -, x, hx', rfl, -, y, hy', rfl, ⟨hy1, hy2, -⟩, rfl⟩, b, hb', rfl, ⟨hb1, hb2, -⟩, rfl⟩ := hs
  exact ⟨d, a, b, x, y, hd, hc, ha trivial, hxs, by rw [hy1 trivial]; decide, hy2, hb2⟩

example : sampleJson.depths 0 = [0, 1, 2, 3, 2, 1] := by decide

/-- what is missing in `C59_names_partial`: asking for the name of an element of an array under an empty key reads before the start of the buffer -/
theorem C59_name_false : ∃ d, jsonInit (fun _ => 0) (b8 "{\"\":[1]}") = .ok d ∧ d.children JDoc.root = .ok [1] ∧ d.children 1 = .ok [3] ∧ d.getNodeName 3 = .ub := by
  refine ⟨_, jsonInit_doc (fun _ => 0) (.obj [] (.cons [] [] [] [] (.arr [] (.cons [] (.prim (b8 "1")) [] .nil)) [] .nil)) [] [] ?_ (by intro c hc; simp at hc) (by intro c hc; simp at hc), ?_, ?_, ?_⟩
  · have bn : Blank [] := by intro c hc; simp at hc
    refine ⟨bn, bn, .nil, bn, bn, ⟨bn, bn, ⟨by decide, ?_, ?_⟩, bn, trivial⟩, bn, trivial⟩
    · intro c hc
      have : c = 49 := by simpa [b8] using hc
      subst this; decide
    · intro c hc
      have : c = 49 := by simpa [b8] using hc.symm
      subst this; decide
  all_goals decide +kernel

/-! ### C60: opening -/

/-- C60, for texts that are JSON documents: opening succeeds. -/
theorem C60_documents_partial (tot : Nat → Int) (v : JV) (w w' : BStr) (hv : v.Ok) (hw : Blank w) (hw' : Blank w') : ∃ d, jsonInit tot (w ++ v.text ++ w') = .ok d :=
  ⟨_, jsonInit_doc tot v w w' hv hw hw'⟩

/-- C60, for texts the tokenizer refuses in its first pass or in its second one: opening fails without reading anything outside the tokens. -/
theorem C60_refused_partial (tot : Nat → Int) (js : List UInt8) (p0 : JP) (e : JErr) (h0 : jsmnParse none js = .ok p0) (h1 : jsmnParse (some p0.count) js = .error e) : jsonInit tot js = .fail := by
  unfold jsonInit
  rw [h0]
  simp only
  rw [h1]
  cases e with
  | ub => exact absurd h1 (C42_safe js _)
  | nomem => rfl
  | inval => rfl
  | part => rfl

example : jsonInit (fun _ => 0) (b8 "{\"a\": [1}") = .fail :=
  C60_refused_partial _ _ ⟨[], -1, 4⟩ .inval (by decide +kernel) (by decide +kernel)

/-- what is missing: a text without any token (an empty file, a file of white space) makes opening read a token that does not exist -/
theorem C60_blank_false (tot : Nat → Int) (w : BStr) (hw : Blank w) : jsonInit tot w = .ub := by
  have hp : ∀ k, jsmnParse (some k) w = .ok JP.init := by
    intro k
    have a := run_blank (k := k) (s := JP.init) (r := []) (pos := 0) hw
    have e := a.loop
    rw [List.append_nil] at e
    unfold jsmnParse
    rw [e]; rfl
  obtain ⟨p0, h0, h1, -⟩ := C41_filled _ _ _ (hp 0)
  unfold jsonInit
  rw [h0]
  simp only
  rw [hp]
  simp only
  rw [if_neg (by rw [h1]; decide)]
  rfl

/-- and so does an object with a key and no value -/
theorem C60_key_false : jsonInit (fun _ => 0) (b8 "{\"a\"}") matches .ub := by decide +kernel

end BX
