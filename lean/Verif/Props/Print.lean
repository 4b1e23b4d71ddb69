import Verif.Lemmas.StreamRead
import Verif.Spec.Print
import Verif.Props.XmlSource
/-
C81: a source printed on the standard output.
-/
namespace BX
open Spec

theorem clean_esc {s : CStr} (h : Clean s) : escText s = s := by
  induction s with
  | nil => rfl
  | cons c s ih =>
    obtain ⟨h1, h2, h3, h4⟩ := h c (by simp)
    have : escChar c = [c] := by unfold escChar; rw [if_neg h1, if_neg h2, if_neg h3, if_neg h4]
    have ih := ih fun x hx => h x (by simp [hx])
    unfold escText at ih ⊢
    rw [List.flatMap_cons, this, ih]; rfl

theorem blank_indent (n : Nat) : ∀ c ∈ '\n' :: indent n, blank c = true := by
  intro c hc
  rcases List.mem_cons.1 hc with rfl | hc
  · decide
  · rw [(List.mem_replicate.1 hc).2]; decide

theorem clean_blank {s : CStr} (h : ∀ c ∈ s, blank c = true) : Clean s := by
  intro c hc
  have := h c hc
  refine ⟨?_, ?_, ?_, ?_⟩ <;> (rintro rfl; revert this; decide)

theorem tok_params {n : CStr} : ∀ (l : List (CStr × Option CStr)) (as : List (CStr × CStr)) (s : CStr), (∀ a ∈ l, TagName a.1 ∧ ∃ v, a.2 = some v ∧ Clean v) → printParams l = .ok s →
    Tok.scan (inTok n as) s = some (inTok n (as ++ l.map fun a => (a.1, a.2.getD [])), [])
  | [], as, s, _, h => by cases h; simp [Tok.scan]
  | (a, w) :: ps, as, s, hq, h => by
    obtain ⟨⟨g1, g2⟩, v, e, hc⟩ := hq (a, w) (by simp)
    simp only at g1 g2 e
    subst e
    unfold printParams at h
    obtain ⟨r, hr, h⟩ := Out.bind_eq_ok h
    cases h
    have hlt : '<' ∉ v := fun hm => (hc _ hm).1 rfl
    have hqt : '"' ∉ v := fun hm => (hc _ hm).2.2.2 rfl
    have ih := tok_params (n := n) ps (as ++ [(a, v)]) r (fun q hq' => hq q (by simp [hq'])) hr
    have hin : TokAt.inside n (as ++ [(a, v)]) = inTok n (as ++ [(a, v)]) := by simp [inTok]
    refine tok_append (ts := []) (q' := .value n as a v) ?_ ?_
    · refine tok_append (ts := []) (us := []) (q' := .attr n as a) ?_ ?_
      · refine tok_cons (ts := []) (inTok_space n as) ?_
        have := tok_attr (n := n) (as := as) (a := []) g2
        simpa using this
      · refine tok_cons (ts := []) (q' := .eq n as a) (by simp [Tok.step, g1]) (tok_cons (ts := []) (q' := .value n as a []) rfl ?_)
        have := tok_value (n := n) (as := as) (a := a) (v := []) hqt hlt
        simpa using this
    · refine tok_cons (ts := []) (q' := .inside n (as ++ [(a, v)])) rfl ?_
      rw [hin, ih]
      simp

theorem printParams_ok : ∀ (l : List (CStr × Option CStr)), (∀ a ∈ l, ∃ v, a.2 = some v) → ∃ s, printParams l = .ok s
  | [], _ => ⟨_, rfl⟩
  | (a, w) :: ps, h => by
    obtain ⟨v, e⟩ := h (a, w) (by simp)
    simp only at e
    subst e
    obtain ⟨s, hs⟩ := printParams_ok ps fun q hq => h q (by simp [hq])
    unfold printParams
    simp only [hs, Out.ok_bind]
    exact ⟨_, rfl⟩

theorem tok_start {n t : CStr} (h1 : n ≠ []) (h2 : ∀ c ∈ n, special c = false) : Tok.scan (.text t) ('<' :: n) = some (.name n, [.chars t]) := by
  refine tok_cons (ts := [.chars t]) (us := []) (q' := .lt) rfl ?_
  cases n with
  | nil => exact absurd rfl h1
  | cons c w =>
    have hc := h2 c (by simp)
    obtain ⟨-, -, h3, -⟩ := special_ne hc
    exact tok_cons (ts := []) (q' := .name [c]) (by simp [Tok.step, hc, h3]) (by simpa using tok_name (n := [c]) fun x hx => h2 x (by simp [hx]))

theorem tok_end {n t : CStr} (h1 : n ≠ []) (h2 : ∀ c ∈ n, special c = false) : Tok.scan (.text t) ('<' :: '/' :: n ++ ['>']) = some (.text [], [.chars t, .closed n]) := by
  refine tok_cons (ts := [.chars t]) (us := [.closed n]) (q' := .lt) rfl (tok_cons (ts := []) (q' := .close []) rfl ?_)
  refine tok_append (ts := []) (q' := .close n) (by simpa using tok_close (n := []) h2) ?_
  exact tok_cons (ts := [.closed n]) (us := []) (q' := .text []) (by simp [Tok.step, h1]) (by rfl)

mutual
theorem print_reads : ∀ (e : PNode) (deep i : Nat), CleanNode e → ∃ s j ts, e.print deep i = .ok (s, j) ∧ Tok.scan (.text []) s = some (.text [], ts) ∧ decodeAll ts = some (nodeToks e)
  | .mk name attrs value kids, deep, i, hq => by
    unfold CleanNode at hq
    obtain ⟨⟨n1, n2⟩, ha, hv, hk⟩ := hq
    obtain ⟨as, has⟩ := printParams_ok attrs fun a h => by obtain ⟨-, v, h, -⟩ := ha a h; exact ⟨v, h⟩
    obtain ⟨ks, j, ts, k1, k2, k3⟩ := prints_read kids (deep + 1) i hk
    have hp := tok_params (n := name) attrs [] as ha has
    rw [List.nil_append] at hp
    unfold PNode.print nodeToks
    rw [has, Out.ok_bind, k1, Out.ok_bind]
    have hline : ∀ c ∈ (if i < j then '\n' :: indent deep else []), blank c = true := by
      split
      · exact blank_indent deep
      · simp
    generalize (if i < j then '\n' :: indent deep else []) = line at hline
    have hval : ∃ m, line ++ (value.map (· ++ line)).getD [] = m ∧ Clean m ∧ textTok m = textTok (value.getD []) := by
      cases value with
      | none =>
        refine ⟨_, rfl, clean_blank ?_, ?_⟩
        · simpa using hline
        · rw [Option.map_none, Option.getD_none, show textTok [] = [] from rfl, List.append_nil]; exact textTok_blank hline
      | some v =>
        refine ⟨_, rfl, ?_, ?_⟩
        · intro c hc
          rcases List.mem_append.1 hc with hc | hc
          · exact clean_blank hline c hc
          · rcases List.mem_append.1 hc with hc | hc
            · exact hv v rfl c hc
            · exact clean_blank hline c hc
        · simp only [Option.map_some, Option.getD_some]
          rw [← List.append_assoc]
          exact textTok_around v hline hline
    obtain ⟨m, m1, m2, m3⟩ := hval
    refine ⟨_, _, [.chars ('\n' :: indent deep)] ++ [.opened name (attrs.map fun a => (a.1, a.2.getD []))] ++ ts ++ [.chars m, .closed name], rfl, ?_, ?_⟩
    · have c0 : Tok.scan (.text []) ('\n' :: indent deep) = some (.text ('\n' :: indent deep), []) := by
        have := tok_text (t := []) (blank_lt (blank_indent deep))
        simpa using this
      have c1 := tok_append c0 (tok_start n1 n2)
      have hin : TokAt.name name = inTok name [] := rfl
      rw [hin] at c1
      have c2 := tok_append c1 hp
      have c3 := tok_append c2 (tok_cons (inTok_end _ _) k2)
      have c4 := tok_append c3 (tok_text (s := m) (t := []) fun hm => (m2 _ hm).1 rfl)
      rw [List.nil_append] at c4
      have c5 := tok_append c4 (tok_end n1 n2)
      rw [← m1] at c5
      simp only [List.append_assoc, List.cons_append, List.nil_append] at c5 ⊢
      rw [c5, m1]
    · have d1 : decodeAll [.chars ('\n' :: indent deep)] = some [] := decode_blank (blank_indent deep)
      have d2 : decodeAll [.opened name (attrs.map fun a => (a.1, a.2.getD []))] = some [.opened name (attrs.map fun a => (a.1, a.2.getD []))] := by
        rw [← decode_opened, List.map_map]
        congr 3
        refine List.map_congr_left fun a h => ?_
        obtain ⟨-, v, h, hc⟩ := ha a h
        simp [h, clean_esc hc]
      have d3 : decodeAll [.chars m] = some (textTok (value.getD [])) := by
        have := decode_text (s := m)
        rw [clean_esc m2, m3] at this
        exact this
      have := decode_append d1 (decode_append d2 (decode_append k3 (decode_append d3 (decode_closed (n := name)))))
      simpa using this
theorem prints_read : ∀ (l : List PNode) (deep i : Nat), CleanNodes l → ∃ s j ts, printNodes l deep i = .ok (s, j) ∧ Tok.scan (.text []) s = some (.text [], ts) ∧ decodeAll ts = some (nodesToks l)
  | [], deep, i, _ => ⟨[], i, [], rfl, rfl, rfl⟩
  | k :: ks, deep, i, hq => by
    unfold CleanNodes at hq
    obtain ⟨s, j, ts, a1, a2, a3⟩ := print_reads k deep i hq.1
    obtain ⟨s', j', ts', b1, b2, b3⟩ := prints_read ks deep j hq.2
    unfold printNodes nodesToks
    rw [a1, Out.ok_bind, b1, Out.ok_bind]
    exact ⟨_, _, _, rfl, tok_append a2 b2, decode_append a3 b3⟩
end

/-- C81 (partial): a source whose values contain no characters of markup is printed as well formed XML in which a reader finds exactly the elements of the source: every one with its name, its attributes in
order with their values, its children in order and its text. What is missing: characters of markup are printed as they are (`C81_markup_false`), and an attribute without a value is not
printed safely (`C81_null_false`). -/
theorem C81_print_partial (n : PNode) (h : CleanNode n) : ∃ s, printSource n = .ok s ∧ readDoc s = some (nodeToks n) := by
  obtain ⟨s, j, ts, h1, h2, h3⟩ := print_reads n 0 0 h
  unfold printSource
  rw [h1, Out.ok_bind]
  refine ⟨_, rfl, ?_⟩
  have h4 := tok_append h2 (tok_text (s := ['\n']) (t := []) (by decide))
  unfold readDoc
  rw [h4]
  have := decode_append h3 (decode_blank blank_nl)
  simpa using this

/-- a document with attributes, children and a text behind them -/
def printDemo : PNode := .mk "a".toList [("x".toList, some "1".toList), ("y".toList, some "z z".toList)] (some "t".toList) [.mk "b".toList [] (some "u v".toList) [], .mk "c".toList [] none []]

/-- the hypothesis of `C81_print_partial` is met -/
example : CleanNode printDemo ∧ printSource printDemo = .ok "\n<a x=\"1\" y=\"z z\">\n    <b>u v</b>\n    <c></c>\nt\n</a>\n".toList := by
  refine ⟨?_, by decide +kernel⟩
  have k1 : CleanNode (.mk "b".toList [] (some "u v".toList) []) := ⟨by unfold TagName; decide, (by simp), (by intro v h; cases h; unfold Clean; decide), trivial⟩
  have k2 : CleanNode (.mk "c".toList [] none []) := ⟨by unfold TagName; decide, (by simp), (by simp), trivial⟩
  refine ⟨by unfold TagName; decide, ?_, (by intro v h; cases h; unfold Clean; decide), k1, k2, trivial⟩
  intro a ha
  simp only [List.mem_cons, List.not_mem_nil, or_false] at ha
  rcases ha with rfl | rfl
  · exact ⟨by unfold TagName; decide, _, rfl, by unfold Clean; decide⟩
  · exact ⟨by unfold TagName; decide, _, rfl, by unfold Clean; decide⟩

/-- it is met by an element of an XML file: `<a x="1">t</a>` -/
example : ∃ e, xmlSource (.elem (b8 "a") none none [⟨b8 "x", some (some "1".toList)⟩] [.text (some "t".toList)]) = .ok e ∧ CleanNode e.pview := by
  refine ⟨_, rfl, ?_⟩
  refine ⟨by unfold TagName; decide, ?_, ?_, trivial⟩
  · intro a ha
    have : a = ("x".toList, some "1".toList) := by revert ha; simp [xmlNs]; intro h; rw [h]; decide +kernel
    subst this
    exact ⟨by unfold TagName; decide, _, rfl, by unfold Clean; decide⟩
  · intro v h
    have : v = "t".toList := by
      have e : (xmlValue [.text (some "t".toList)]).asText = some "t".toList := by decide +kernel
      rw [e] at h
      exact (Option.some.inj h).symm
    subst this
    unfold Clean; decide

/-- C81 (false in general): characters of markup in a value are printed as they are, so that two different sources are printed as the same text: a text may look like an element. -/
theorem C81_markup_false (name k : CStr) : printSource (.mk name [] (some ('\n' :: indent 1 ++ '<' :: k ++ '>' :: '<' :: '/' :: k ++ ['>', '\n'])) []) = printSource (.mk name [] none [.mk k [] none []]) := by
  simp [printSource, PNode.print, printNodes, printParams, indent]

/-- C81 (false in general): an ampersand in a text of an element makes the output unreadable. -/
theorem C81_amp_false : printSource (.mk "a".toList [] (some "x & y".toList) []) = .ok "\n<a>x & y</a>\n".toList ∧ readDoc "\n<a>x & y</a>\n".toList = none := by decide +kernel

/-- C81 (false in general): an attribute for which the source has no value makes printing undefined, whatever the rest of the element is. -/
theorem C81_null_false (name a : CStr) (v : Option CStr) (ks : List PNode) : printSource (.mk name [(a, none)] v ks) = .ub := rfl

end BX
