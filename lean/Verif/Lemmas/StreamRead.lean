import Verif.Lemmas.StreamView
/-
Reading a printed tree.
-/
namespace BX
open XBT Spec

theorem tok_append : ∀ {a b : CStr} {q q' q'' : TokAt} {ts us : List Tok}, Tok.scan q a = some (q', ts) → Tok.scan q' b = some (q'', us) → Tok.scan q (a ++ b) = some (q'', ts ++ us)
  | [], b, q, q', q'', ts, us, h, h' => by
    rw [Tok.scan] at h; cases h; simpa using h'
  | c :: a, b, q, q', q'', ts, us, h, h' => by
    rw [Tok.scan] at h
    show Tok.scan q (c :: (a ++ b)) = _
    rw [Tok.scan]
    cases hs : Tok.step q c with
    | none => rw [hs] at h; cases h
    | some r =>
      rw [hs] at h
      simp only [Option.map_eq_some_iff] at h ⊢
      obtain ⟨w, hw, he⟩ := h
      cases he
      exact ⟨_, tok_append (q' := w.1) (ts := w.2) hw h', by simp⟩

theorem tok_cons {c : Char} {b : CStr} {q q' q'' : TokAt} {ts us : List Tok} (h : Tok.step q c = some (q', ts)) (h' : Tok.scan q' b = some (q'', us)) : Tok.scan q (c :: b) = some (q'', ts ++ us) := by
  rw [Tok.scan, h]; simp [h']

theorem tok_text : ∀ {s t : CStr}, '<' ∉ s → Tok.scan (.text t) s = some (.text (t ++ s), [])
  | [], t, _ => by simp [Tok.scan]
  | c :: s, t, h => by
    have h1 : c ≠ '<' := fun e => h (by simp [e])
    rw [show t ++ c :: s = t ++ [c] ++ s by simp]
    exact tok_cons (ts := []) (by simp [Tok.step, h1]) (tok_text fun hm => h (by simp [hm]))

theorem tok_name : ∀ {s n : CStr}, (∀ c ∈ s, special c = false) → Tok.scan (.name n) s = some (.name (n ++ s), [])
  | [], n, _ => by simp [Tok.scan]
  | c :: s, n, h => by
    have h1 := h c (by simp)
    obtain ⟨-, h2, h3, -, -, h4⟩ := special_ne h1
    have := tok_name (s := s) (n := n ++ [c]) fun x hx => h x (by simp [hx])
    rw [show n ++ c :: s = n ++ [c] ++ s by simp]
    exact tok_cons (ts := []) (by simp [Tok.step, h1, h2, h3, h4]) this

theorem tok_attr : ∀ {s n : CStr} {as : List (CStr × CStr)} {a : CStr}, (∀ c ∈ s, special c = false) → Tok.scan (.attr n as a) s = some (.attr n as (a ++ s), [])
  | [], n, as, a, _ => by simp [Tok.scan]
  | c :: s, n, as, a, h => by
    have h1 := h c (by simp)
    obtain ⟨-, -, -, h2, -⟩ := special_ne h1
    have := tok_attr (s := s) (n := n) (as := as) (a := a ++ [c]) fun x hx => h x (by simp [hx])
    rw [show a ++ c :: s = a ++ [c] ++ s by simp]
    exact tok_cons (ts := []) (by simp [Tok.step, h1, h2]) this

theorem tok_value : ∀ {s n : CStr} {as : List (CStr × CStr)} {a v : CStr}, '"' ∉ s → '<' ∉ s → Tok.scan (.value n as a v) s = some (.value n as a (v ++ s), [])
  | [], n, as, a, v, _, _ => by simp [Tok.scan]
  | c :: s, n, as, a, v, h, h' => by
    have h1 : c ≠ '"' := fun e => h (by simp [e])
    have h2 : c ≠ '<' := fun e => h' (by simp [e])
    have := tok_value (s := s) (n := n) (as := as) (a := a) (v := v ++ [c]) (fun hx => h (by simp [hx])) (fun hx => h' (by simp [hx]))
    rw [show v ++ c :: s = v ++ [c] ++ s by simp]
    exact tok_cons (ts := []) (by simp [Tok.step, h1, h2]) this

theorem tok_close : ∀ {s n : CStr}, (∀ c ∈ s, special c = false) → Tok.scan (.close n) s = some (.close (n ++ s), [])
  | [], n, _ => by simp [Tok.scan]
  | c :: s, n, h => by
    have h1 := h c (by simp)
    obtain ⟨-, h2, -⟩ := special_ne h1
    have := tok_close (s := s) (n := n ++ [c]) fun x hx => h x (by simp [hx])
    rw [show n ++ c :: s = n ++ [c] ++ s by simp]
    exact tok_cons (ts := []) (by simp [Tok.step, h1, h2]) this

/-- in an opening tag after its name and some attributes -/
def inTok (n : CStr) (as : List (CStr × CStr)) : TokAt := if as = [] then .name n else .inside n as

theorem inTok_end (n : CStr) (as : List (CStr × CStr)) : Tok.step (inTok n as) '>' = some (.text [], [.opened n as]) := by
  unfold inTok
  split
  · subst as; rfl
  · rfl

theorem inTok_slash (n : CStr) (as : List (CStr × CStr)) : Tok.step (inTok n as) '/' = some (.slash n as, []) := by
  unfold inTok
  split
  · subst as; rfl
  · rfl

theorem inTok_space (n : CStr) (as : List (CStr × CStr)) : Tok.step (inTok n as) ' ' = some (.attr n as [], []) := by
  unfold inTok
  split
  · subst as; rfl
  · rfl

/-- escaped texts have no markup -/
theorem escText_clean (s : CStr) : '<' ∉ escText s ∧ '"' ∉ escText s := by
  have : ∀ c d, d ∈ escChar c → d ≠ '<' ∧ d ≠ '"' := by
    intro c d hd
    unfold escChar at hd
    split at hd
    · revert d; decide
    · split at hd
      · revert d; decide
      · split at hd
        · revert d; decide
        · split at hd
          · revert d; decide
          · simp only [List.mem_cons, List.not_mem_nil, or_false] at hd
            subst hd
            exact ⟨by assumption, by assumption⟩
  constructor
  · intro h
    obtain ⟨c, -, hd⟩ := List.mem_flatMap.1 h
    exact (this c _ hd).1 rfl
  · intro h
    obtain ⟨c, -, hd⟩ := List.mem_flatMap.1 h
    exact (this c _ hd).2 rfl

theorem blank_esc {s : CStr} (h : ∀ c ∈ s, blank c = true) : escText s = s := by
  induction s with
  | nil => rfl
  | cons c s ih =>
    have hc := h c (by simp)
    have : escChar c = [c] := by
      unfold escChar
      rw [if_neg (by rintro rfl; revert hc; decide), if_neg (by rintro rfl; revert hc; decide), if_neg (by rintro rfl; revert hc; decide), if_neg (by rintro rfl; revert hc; decide)]
    have ih := ih fun x hx => h x (by simp [hx])
    unfold escText at ih ⊢
    rw [List.flatMap_cons, this, ih]; rfl

theorem dropWhile_all {p : Char → Bool} : ∀ {s : CStr} (t : CStr), (∀ c ∈ s, p c = true) → (s ++ t).dropWhile p = t.dropWhile p
  | [], t, _ => rfl
  | c :: s, t, h => by
    rw [List.cons_append, List.dropWhile_cons, if_pos (h c (by simp))]
    exact dropWhile_all t fun x hx => h x (by simp [hx])

/-- white space around a text does not matter -/
theorem strip_around {a b : CStr} (s : CStr) (ha : ∀ c ∈ a, blank c = true) (hb : ∀ c ∈ b, blank c = true) : strip (a ++ s ++ b) = strip s := by
  unfold strip
  rw [List.append_assoc, dropWhile_all _ ha]
  have : ∀ s : CStr, ((s ++ b).dropWhile blank).reverse.dropWhile blank = (s.dropWhile blank).reverse.dropWhile blank := by
    intro s
    induction s with
    | nil =>
      have := dropWhile_all (p := blank) [] hb
      rw [List.append_nil] at this
      rw [List.nil_append, this]
    | cons c s ih =>
      rw [List.cons_append, List.dropWhile_cons, List.dropWhile_cons]
      by_cases hc : blank c = true
      · rw [if_pos hc, if_pos hc]; exact ih
      · rw [if_neg hc, if_neg hc, ← List.cons_append, List.reverse_append, dropWhile_all _ (fun x hx => hb x (List.mem_reverse.1 hx))]
  rw [this]

theorem strip_blank {s : CStr} (h : ∀ c ∈ s, blank c = true) : strip s = [] := by
  have := strip_around (b := []) [] h (by simp)
  rw [List.append_nil, List.append_nil] at this
  rw [this]; rfl

theorem textTok_around {a b : CStr} (s : CStr) (ha : ∀ c ∈ a, blank c = true) (hb : ∀ c ∈ b, blank c = true) : textTok (a ++ s ++ b) = textTok s := by
  unfold textTok; rw [strip_around s ha hb]

theorem textTok_blank {s : CStr} (h : ∀ c ∈ s, blank c = true) : textTok s = [] := by
  unfold textTok; rw [strip_blank h, if_pos rfl]

theorem decode_append : ∀ {a b x y : List Tok}, decodeAll a = some x → decodeAll b = some y → decodeAll (a ++ b) = some (x ++ y)
  | [], b, x, y, h, h' => by
    rw [decodeAll] at h; cases h; simpa using h'
  | t :: a, b, x, y, h, h' => by
    rw [decodeAll] at h
    rw [List.cons_append, decodeAll]
    cases ht : t.decode with
    | none => rw [ht] at h; cases h
    | some u =>
      rw [ht] at h
      simp only [Option.bind_some, Option.map_eq_some_iff] at h ⊢
      obtain ⟨w, hw, he⟩ := h
      cases he
      exact ⟨_, decode_append hw h', by simp⟩

theorem decode_text {s : CStr} : decodeAll [.chars (escText s)] = some (textTok s) := by
  simp [decodeAll, Tok.decode, readXml_escText]

theorem decode_blank {s : CStr} (h : ∀ c ∈ s, blank c = true) : decodeAll [.chars s] = some [] := by
  have := decode_text (s := s)
  rw [blank_esc h, textTok_blank h] at this
  exact this

theorem readAttrs_esc (l : List (CStr × CStr)) : readAttrs (l.map fun p => (p.1, escText p.2)) = some l := by
  induction l with
  | nil => rfl
  | cons a l ih => simp [readAttrs, readXml_escText, ih]

theorem decode_opened {n : CStr} (l : List (CStr × CStr)) : decodeAll [.opened n (l.map fun p => (p.1, escText p.2))] = some [.opened n l] := by
  simp [decodeAll, Tok.decode, readAttrs_esc]

theorem decode_closed {n : CStr} : decodeAll [.closed n] = some [.closed n] := rfl

theorem blank_tabs (n : Nat) : ∀ c ∈ tabs n, blank c = true := by
  unfold tabs
  intro c hc
  rw [(List.mem_replicate.1 hc).2]; decide

theorem blank_nl : ∀ c ∈ ['\n'], blank c = true := by decide

theorem blank_lt {s : CStr} (h : ∀ c ∈ s, blank c = true) : '<' ∉ s := fun hm => absurd (h _ hm) (by decide)

theorem nameText_good {D : Doc} {b : Bool} {e : Nat} (h : ∃ n, D.nameOf b (D.id e) = some n ∧ Spec.GoodName n) : D.nameText b e ≠ [] ∧ ∀ c ∈ D.nameText b e, special c = false := by
  obtain ⟨n, h1, h2, h3⟩ := h
  unfold Doc.nameText
  rw [h1, Option.getD_some]
  exact ⟨toC_ne h2, h3⟩

theorem tok_attrs {D : Doc} {txt : Data → Option CStr} {n : CStr} : ∀ (l : List Nat) (as : List (CStr × CStr)), (∀ a ∈ l, ∃ n, D.nameOf false (D.id a) = some n ∧ Spec.GoodName n) →
    Tok.scan (inTok n as) (renderXmlAttrs D txt l) = some (inTok n (as ++ l.map fun a => (D.nameText false a, escText (D.xmlOf txt a))), [])
  | [], as, _ => by simp [renderXmlAttrs, Tok.scan]
  | p :: ps, as, h => by
    obtain ⟨g1, g2⟩ := nameText_good (h p (by simp))
    obtain ⟨h2, h3⟩ := escText_clean (D.xmlOf txt p)
    have ih := tok_attrs (txt := txt) (n := n) ps (as ++ [(D.nameText false p, escText (D.xmlOf txt p))]) fun q hq => h q (by simp [hq])
    have hin : TokAt.inside n (as ++ [(D.nameText false p, escText (D.xmlOf txt p))]) = inTok n (as ++ [(D.nameText false p, escText (D.xmlOf txt p))]) := by simp [inTok]
    rw [renderXmlAttrs]
    refine tok_append (ts := []) (q' := .value n as (D.nameText false p) (escText (D.xmlOf txt p))) ?_ ?_
    · refine tok_append (ts := []) (us := []) (q' := .attr n as (D.nameText false p)) ?_ ?_
      · refine tok_cons (ts := []) (inTok_space n as) ?_
        have := tok_attr (n := n) (as := as) (a := []) g2
        simpa using this
      · refine tok_cons (ts := []) (q' := .eq n as (D.nameText false p)) (by simp [Tok.step, g1]) (tok_cons (ts := []) (q' := .value n as (D.nameText false p) []) rfl ?_)
        have := tok_value (n := n) (as := as) (a := D.nameText false p) (v := []) h3 h2
        simpa using this
    · refine tok_cons (ts := []) (q' := .inside n (as ++ [(D.nameText false p, escText (D.xmlOf txt p))])) rfl ?_
      rw [hin, ih]
      simp

theorem tok_closing {n t : CStr} (h1 : n ≠ []) (h2 : ∀ c ∈ n, special c = false) : Tok.scan (.text t) ('<' :: '/' :: n ++ ['>', '\n']) = some (.text ['\n'], [.chars t, .closed n]) := by
  refine tok_cons (ts := [.chars t]) (us := [.closed n]) (q' := .lt) rfl (tok_cons (ts := []) (q' := .close []) rfl ?_)
  refine tok_append (ts := []) (q' := .close n) (by simpa using tok_close (n := []) h2) ?_
  exact tok_cons (ts := [.closed n]) (us := []) (q' := .text []) (by simp [Tok.step, h1]) (by rfl)

theorem tok_opening {n t ps : CStr} {as : List (CStr × CStr)} (h1 : n ≠ []) (h2 : ∀ c ∈ n, special c = false) (hp : Tok.scan (inTok n []) ps = some (inTok n as, [])) (deep : Nat) :
    Tok.scan (.text t) (tabs deep ++ '<' :: n ++ ps) = some (inTok n as, [.chars (t ++ tabs deep)]) := by
  refine tok_append (ts := [.chars (t ++ tabs deep)]) (us := []) (q' := .name n) ?_ hp
  refine tok_append (ts := []) (us := [.chars (t ++ tabs deep)]) (q' := .text (t ++ tabs deep)) (tok_text (not_lt_tabs deep)) ?_
  refine tok_cons (ts := [.chars (t ++ tabs deep)]) (us := []) (q' := .lt) rfl ?_
  cases n with
  | nil => exact absurd rfl h1
  | cons c w =>
    have hc := h2 c (by simp)
    obtain ⟨-, -, h3, -⟩ := special_ne hc
    exact tok_cons (ts := []) (q' := .name [c]) (by simp [Tok.step, hc, h3]) (by simpa using tok_name (n := [c]) fun x hx => h2 x (by simp [hx]))

theorem xmlOf_null {gm : Gm} {flt : List UInt8 → CStr} {D : Doc} {e : Nat} (h : D.type e = NULL) : D.xmlOf (valueText gm flt) e = [] := by
  unfold Doc.xmlOf
  rw [h]; rfl

mutual
theorem read_render {gm : Gm} {flt : List UInt8 → CStr} {D : Doc} : ∀ (T : ETree) (deep : Nat) (t : CStr), (∀ c ∈ t, blank c = true) →
    D.Every (D.printable (valueText gm flt) true) (D.printable (valueText gm flt) false) T →
    ∃ ts, Tok.scan (.text t) (renderXml D (valueText gm flt) T deep) = some (.text ['\n'], ts) ∧ decodeAll ts = some (D.toks (valueText gm flt) T)
  | .node e ks, deep, t, ht, hq => by
    unfold Doc.Every at hq
    obtain ⟨q1, q2, q3⟩ := hq
    obtain ⟨n1, n2⟩ := nameText_good q1.2.2.2.1
    have ha := tok_attrs (txt := valueText gm flt) (n := D.nameText true e) (D.forest.at' (.attrs e)) [] fun a ha => (q2 a ha).2.2.2.1
    rw [List.nil_append] at ha
    have ho := tok_opening (t := t) n1 n2 ha deep
    have d1 : decodeAll [.chars (t ++ tabs deep)] = some [] := decode_blank (by
      intro c hc
      rcases List.mem_append.1 hc with hc | hc
      · exact ht c hc
      · exact blank_tabs _ c hc)
    have d2 : decodeAll [.opened (D.nameText true e) ((D.forest.at' (.attrs e)).map fun a => (D.nameText false a, escText (D.xmlOf (valueText gm flt) a)))] =
        some [.opened (D.nameText true e) ((D.forest.at' (.attrs e)).map fun a => (D.nameText false a, D.xmlOf (valueText gm flt) a))] := by
      rw [← decode_opened, List.map_map]; rfl
    have hcl := escText_clean (D.xmlOf (valueText gm flt) e)
    unfold renderXml Doc.toks
    cases ks with
    | nil =>
      simp only [List.isEmpty_nil, if_true]
      unfold Doc.toksAll
      by_cases hN : D.type e = NULL
      · rw [if_pos hN]
        refine ⟨_, tok_append ho (tok_cons (ts := []) (inTok_slash _ _) (tok_cons (us := []) (q' := .text []) rfl rfl)), ?_⟩
        rw [xmlOf_null hN, List.nil_append, List.append_nil, show textTok [] = [] from rfl]
        have := decode_append d1 (decode_append d2 (decode_closed (n := D.nameText true e)))
        simpa using this
      · rw [if_neg hN]
        refine ⟨_, tok_append ho (by
          have := tok_append (tok_cons (ts := [_]) (inTok_end (D.nameText true e) ((D.forest.at' (.attrs e)).map fun a => (D.nameText false a, escText (D.xmlOf (valueText gm flt) a)))) (tok_text (t := []) hcl.1)) (tok_closing n1 n2)
          simpa using this), ?_⟩
        have := decode_append d1 (decode_append d2 (decode_append (decode_text (s := D.xmlOf (valueText gm flt) e)) (decode_closed (n := D.nameText true e))))
        simpa using this
    | cons k ks =>
      simp only [List.isEmpty_cons, Bool.false_eq_true, if_false]
      obtain ⟨ts, t', b1, b2, b3⟩ := read_renders (k :: ks) (deep + 1) ['\n'] blank_nl q3
      have hmid : ∀ (m : CStr), '<' ∉ m → Tok.scan (inTok (D.nameText true e) ((D.forest.at' (.attrs e)).map fun a => (D.nameText false a, escText (D.xmlOf (valueText gm flt) a))))
          ('>' :: '\n' :: renderXmls D (valueText gm flt) (k :: ks) (deep + 1) ++ (m ++ '<' :: '/' :: D.nameText true e ++ ['>', '\n'])) =
          some (.text ['\n'], [.opened (D.nameText true e) ((D.forest.at' (.attrs e)).map fun a => (D.nameText false a, escText (D.xmlOf (valueText gm flt) a)))] ++ ts ++ [.chars (t' ++ m), .closed (D.nameText true e)]) := by
        intro m hm
        refine tok_append (tok_cons (ts := [_]) (inTok_end _ _) (tok_cons (ts := []) (q' := .text ['\n']) rfl b2)) ?_
        rw [List.append_assoc]
        exact tok_append (ts := []) (tok_text hm) (tok_closing n1 n2)
      by_cases hN : D.type e = NULL
      · rw [if_pos hN, xmlOf_null hN, show textTok [] = [] from rfl]
        refine ⟨_, tok_append ho (by
          have := hmid (tabs deep) (not_lt_tabs deep)
          rw [← List.append_assoc] at this
          simpa using this), ?_⟩
        have d3 : decodeAll [.chars (t' ++ tabs deep)] = some [] := decode_blank (by
          intro c hc
          rcases List.mem_append.1 hc with hc | hc
          · exact b1 c hc
          · exact blank_tabs _ c hc)
        have := decode_append d1 (decode_append d2 (decode_append b3 (decode_append d3 (decode_closed (n := D.nameText true e)))))
        simpa using this
      · rw [if_neg hN]
        refine ⟨_, tok_append ho (by
          have := hmid (tabs (deep + 1) ++ escText (D.xmlOf (valueText gm flt) e) ++ ['\n'] ++ tabs deep) (by simp [not_lt_tabs, hcl.1])
          simpa using this), ?_⟩
        have d3 : decodeAll [.chars (t' ++ (tabs (deep + 1) ++ escText (D.xmlOf (valueText gm flt) e) ++ ['\n'] ++ tabs deep))] = some (textTok (D.xmlOf (valueText gm flt) e)) := by
          have hb1 : ∀ c ∈ t' ++ tabs (deep + 1), blank c = true := by
            intro c hc
            rcases List.mem_append.1 hc with hc | hc
            · exact b1 c hc
            · exact blank_tabs _ c hc
          have hb2 : ∀ c ∈ '\n' :: tabs deep, blank c = true := by
            intro c hc
            rcases List.mem_cons.1 hc with hc | hc
            · rw [hc]; decide
            · exact blank_tabs _ c hc
          have : t' ++ (tabs (deep + 1) ++ escText (D.xmlOf (valueText gm flt) e) ++ ['\n'] ++ tabs deep) = escText ((t' ++ tabs (deep + 1)) ++ D.xmlOf (valueText gm flt) e ++ ('\n' :: tabs deep)) := by
            rw [escText_append, escText_append, blank_esc hb1, blank_esc hb2]
            simp
          rw [this, decode_text, textTok_around _ hb1 hb2]
        have := decode_append d1 (decode_append d2 (decode_append b3 (decode_append d3 (decode_closed (n := D.nameText true e)))))
        simpa using this
theorem read_renders {gm : Gm} {flt : List UInt8 → CStr} {D : Doc} : ∀ (ks : List ETree) (deep : Nat) (t : CStr), (∀ c ∈ t, blank c = true) →
    D.EveryAll (D.printable (valueText gm flt) true) (D.printable (valueText gm flt) false) ks →
    ∃ ts t', (∀ c ∈ t', blank c = true) ∧ Tok.scan (.text t) (renderXmls D (valueText gm flt) ks deep) = some (.text t', ts) ∧ decodeAll ts = some (D.toksAll (valueText gm flt) ks)
  | [], deep, t, ht, _ => ⟨[], t, ht, by unfold renderXmls; rfl, by unfold Doc.toksAll; rfl⟩
  | k :: ks, deep, t, ht, hq => by
    unfold Doc.EveryAll at hq
    obtain ⟨ts, h1, h2⟩ := read_render k deep t ht hq.1
    obtain ⟨us, t', g1, g2, g3⟩ := read_renders ks deep ['\n'] blank_nl hq.2
    unfold renderXmls Doc.toksAll
    exact ⟨_, t', g1, tok_append h1 g2, decode_append h2 g3⟩
end

end BX
