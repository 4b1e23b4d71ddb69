import Verif.Spec.ItemText
import Verif.Props.Room
/-
Property C87: the texts of a document are read unchanged from its file.
-/
namespace BX
open XBT Spec

theorem toC_cBytes {s : CStr} (h : CText s) : toC (cPrefix (cBytes s)) = s := by
  unfold cPrefix cBytes toC
  have h0 : ∀ c ∈ s, (UInt8.ofNat c.toNat) ≠ 0 ∧ Char.ofNat (UInt8.ofNat c.toNat).toNat = c := by
    intro c hc
    obtain ⟨h1, h2⟩ := h c hc
    have e : (UInt8.ofNat c.toNat).toNat = c.toNat := by
      rw [UInt8.toNat_ofNat']; omega
    refine ⟨fun h => ?_, ?_⟩
    · rw [h] at e; simp at e; omega
    · rw [e]; exact Char.ofNat_toNat c
  rw [List.takeWhile_append_of_pos]
  · simp only [List.takeWhile_cons, List.takeWhile_nil]
    simp only [ne_eq, not_true_eq_false, decide_false, Bool.false_eq_true, if_false, List.append_nil, List.map_map]
    conv => rhs; rw [← List.map_id s]
    exact List.map_congr_left (fun c hc => (h0 c hc).2)
  · intro b hb
    obtain ⟨c, hc, rfl⟩ := List.mem_map.1 hb
    simpa using (h0 c hc).1

/-- a text in the form of a type is stored as a value of this text -/
theorem canon_data {gm : Gm} {flt : CStr → List UInt8} {ftx : List UInt8 → CStr} {t : XBT} {s : CStr} (h : Canon gm ftx t s) (h' : t ≠ STRING) :
    ∃ d, textData flt s t = some d ∧ d.type = t ∧ valueText gm ftx d = .ok s := by
  obtain ⟨d, h1, h2⟩ := h
  obtain ⟨s', e1, e2⟩ := C58_roundtrip_partial gm flt ftx t d h1 0 (s.length + 8)
  rw [h2] at e1
  cases e1
  refine ⟨⟨t, d⟩, ?_, rfl, ?_⟩
  · unfold textData; rw [e2]
  · unfold valueText; rw [if_neg h']; exact h2

theorem node_text {gm : Gm} {flt : CStr → List UInt8} {ftx : List UInt8 → CStr} {v : SVal} (hok : NodeOk v) (h : NodeText gm ftx v) {d : Data} (hd : nodeData flt v = some d) :
    valueText gm ftx d = .ok v.chars := by
  match v, hok, h, hd with
  | .none, _, _, hd => cases hd; rfl
  | .text s, hok, h, hd =>
    replace hd : textData flt s (detect s) = some d := hd
    by_cases hs : detect s = STRING
    · rw [hs] at hd
      unfold textData fromString at hd
      cases hd
      unfold valueText
      rw [if_pos rfl]
      exact congrArg Out.ok (toC_cBytes hok.1)
    · rcases h with h | h
      · exact absurd h hs
      · obtain ⟨d', e1, -, e2⟩ := canon_data (flt := flt) h hs
        rw [e1] at hd; cases hd
        exact e2

theorem attr_text {gm : Gm} {flt : CStr → List UInt8} {ftx : List UInt8 → CStr} {t : XBT} {v : SVal} (hok : AttrOk t v) (h : AttrText gm ftx t v) :
    valueText gm ftx (attrData flt t v) = .ok v.chars := by
  match v, hok, h with
  | .none, _, _ => rfl
  | .text s, hok, h =>
    simp only [attrData]
    by_cases h0 : s = []
    · subst h0; rfl
    · rw [if_neg h0]
      have hstr : valueText gm ftx ⟨STRING, cBytes s⟩ = .ok s := by
        unfold valueText; rw [if_pos rfl]; exact congrArg Out.ok (toC_cBytes hok.1)
      by_cases h4 : size2 (detect2 s t) 0 = 4
      · rw [if_pos h4]
        rcases h with h | h
        · exact absurd h4 h
        · have hs : detect2 s t ≠ STRING := by intro e; rw [e] at h4; simp [size2] at h4
          obtain ⟨d, e1, -, e2⟩ := canon_data (flt := flt) h hs
          rw [e1]; exact e2
      · rw [if_neg h4]; exact hstr

/-- the data of an attribute that comes from a text are four bytes, a string or nothing -/
theorem attrData_type {flt : CStr → List UInt8} {t : XBT} {v : SVal} (hok : AttrOk t v) (hv : ∀ b s, v ≠ .bin b s) :
    is4 (attrData flt t v).type = true ∨ (attrData flt t v).type = STRING ∨ (attrData flt t v).type = NULL := by
  match v, hok with
  | .bin b s, _ => exact absurd rfl (hv b s)
  | .none, _ => exact Or.inr (Or.inr rfl)
  | .text s, hok =>
    simp only [attrData]
    by_cases h0 : s = []
    · simp only [if_pos h0]; simp
    · simp only [if_neg h0]
      by_cases h4 : size2 (detect2 s t) 0 = 4
      · simp only [if_pos h4]
        have hd := (hok.2 h0).1
        have h4' : is4 (detect2 s t) = true ∨ detect2 s t = BLOB := by
          have hx := (hok.2 h0).2
          revert h4 hd hx
          generalize detect2 s t = u
          cases u <;> first | decide | simp [size2, is4, isINT32]
        rcases h4' with h4' | h4'
        · unfold textData
          split
          · exact Or.inl h4'
          · exact Or.inr (Or.inl rfl)
        · rw [h4']
          simp [textData, fromString]
      · simp only [if_neg h4]; simp

theorem content_keeps_type {f : Img} {t : XBT} {p : Int} {d : Data} (h : f.content t p = .ok d) : d.type = t := by
  unfold Img.content at h
  split at h
  · obtain ⟨b, -, h⟩ := Out.bind_eq_ok h; cases h; rfl
  split at h
  · obtain ⟨b, -, h⟩ := Out.bind_eq_ok h; cases h; rfl
  split at h
  · obtain ⟨b, -, h⟩ := Out.bind_eq_ok h; cases h; rfl
  split at h
  · obtain ⟨n, -, h⟩ := Out.bind_eq_ok h
    split at h
    · cases h
    · obtain ⟨b, -, h⟩ := Out.bind_eq_ok h; cases h; rfl
  split at h
  · cases h
  · obtain ⟨b, -, h⟩ := Out.bind_eq_ok h; cases h; rfl

/-- the text of an attribute is that of its data -/
theorem attrText_of {gm : Gm} {ftx : List UInt8 → CStr} {f : Img} {x a : Int} {d : Data} (ha : a % 4 = 0) (h : f.pGetData x a = .ok d) (ht : is4 d.type = true ∨ d.type = STRING ∨ d.type = NULL) :
    f.attrText gm ftx x a = valueText gm ftx d := by
  unfold Img.pGetData at h
  obtain ⟨c, h1, h⟩ := Out.bind_eq_ok h
  unfold Img.attrText
  rw [h1, Out.ok_bind]
  split at h
  · cases h
  · next t hc =>
    rw [hc]
    simp only
    split at h
    · next h4 =>
      have e := content_keeps_type h
      have h4' : is4 t = true := h4
      have hx : xalign t = 4 := by
        revert h4'; cases t <;> decide
      have hal : aaI (a + 4) = a + 4 := by unfold aaI; omega
      rw [if_pos h4', Out.pure_eq, Out.ok_bind, if_pos hx, hal, h, Out.ok_bind]
    · next h4 =>
      obtain ⟨q, h2, h⟩ := Out.bind_eq_ok h
      have e := content_keeps_type h
      have hx : xalign t ≠ 4 ∧ xalign t ≠ 8 := by
        rcases ht with ht | ht | ht
        · rw [e] at ht; exact absurd ht h4
        · rw [e] at ht; subst ht; decide
        · rw [e] at ht; subst ht; decide
      rw [if_neg h4, h2, Out.ok_bind, Out.pure_eq, Out.ok_bind, if_neg hx.1, if_neg hx.2, h, Out.ok_bind]

mutual
theorem same_texts {gm : Gm} {flt : CStr → List UInt8} {ftx : List UInt8 → CStr} {pt : BStr → XBT} {f : Img} {r : Rd} : ∀ (e : Elem) (x : Int), Reads flt pt f r e x → Laid f e x → TreeOk pt e → DocText gm ftx pt e → SameTexts gm ftx f e x
  | .mk name value params children, x, hr, hl, hok, hd => by
    unfold Reads at hr
    unfold TreeOk at hok
    unfold DocText at hd
    unfold Laid at hl
    obtain ⟨-, -, r1, ⟨d, d1, d2⟩, r2, r3⟩ := hr
    obtain ⟨hx, len, own, -, -, -, hl⟩ := hl
    unfold SameTexts
    refine ⟨?_, ?_, r2, sames_texts children x 0 _ _ r3 hl hok.2.2 hd.2.2⟩
    · unfold Img.itemText
      rw [d2, Out.ok_bind]
      exact node_text hok.1 hd.1 d1
    · intro i hi
      obtain ⟨a, id, a1, -, -, a2⟩ := r1 i hi
      refine ⟨a, a1, ?_⟩
      have ha : a % 4 = 0 := by
        unfold Img.getParamByIndex at a1
        rw [if_neg (by omega)] at a1
        obtain ⟨pc, -, a1⟩ := Out.bind_eq_ok a1
        split at a1
        · cases a1
        · cases a1; omega
      have hm := List.getElem_mem hi
      have htx := hd.2.1 _ hm
      rw [attrText_of ha a2 (attrData_type (hok.2.1 _ hm) (fun b s e => by rw [e] at htx; exact htx))]
      exact attr_text (hok.2.1 _ hm) htx
theorem sames_texts {gm : Gm} {flt : CStr → List UInt8} {ftx : List UInt8 → CStr} {pt : BStr → XBT} {f : Img} {r : Rd} : ∀ (es : List Elem) (x : Int) (i : Nat) (lo hi : Int), ReadsAll flt pt f r es x i → LaidAll f es x i lo hi → TreeOkAll pt es →
    DocTextAll gm ftx pt es → SameTextsAll gm ftx f es x i
  | [], _, _, _, _, _, _, _, _ => by unfold SameTextsAll; trivial
  | e :: es, x, i, lo, hi, hr, hl, hok, hd => by
    unfold ReadsAll at hr
    unfold LaidAll at hl
    unfold TreeOkAll at hok
    unfold DocTextAll at hd
    obtain ⟨⟨y, y1, y2⟩, hr⟩ := hr
    obtain ⟨z, len, z1, -, -, -, -, z2, hl⟩ := hl
    rw [y1] at z1
    cases z1
    unfold SameTextsAll
    exact ⟨⟨y, y1, same_texts e y y2 z2 hok.1 hd.1⟩, sames_texts es x (i + 1) _ _ hr hl hok.2 hd.2⟩
end

/-- C87: a document whose texts are plain texts, or have the form of the type they look like, is converted and read: every element and every attribute has the
text that it has in the document, at any depth.
Partial: as `C28_text_document_partial` (room, names, storable texts); other texts are changed, see the theorems below. -/
theorem C87_texts_partial (gm : Gm) (ftx : List UInt8 → CStr) (flt : CStr → List UInt8) (hflt : ∀ s, (flt s).length = 4) (filename : BStr) (hfn : NoNul filename) (mtime : Int) (filesize : Nat)
    (hsz : 1024 + filesize * 4 < 2147483648) (m0 : Mem) (e : Elem) (hroom : needDoc filename e ≤ 1024 + filesize * 4) (hnames : NamesIn NoNul NoNul e)
    (htags : AtMost 32768 (tagOps e)) (hpars : AtMost 32768 (paramOps e)) (hdoc : TextDoc flt (docAttrType e) e) (hok : TreeOk (docAttrType e) e) (htext : DocText gm ftx (docAttrType e) e) (fuel : Nat) :
    ∃ f r x, makeXb flt filename mtime filesize m0 e = .ok f ∧ f.initialize (fuel + 1) = .ok r ∧ r.root = some x ∧ SameTexts gm ftx f e x := by
  obtain ⟨f, h1, h2⟩ := C44_room_partial flt hflt filename mtime filesize m0 e hnames hpars hdoc hok hroom
  obtain ⟨r, x, h3, h4, h5, h6⟩ := C28_document_partial flt hflt filename hfn mtime filesize hsz m0 e f h1 (by omega) hnames htags hpars hok fuel
  exact ⟨f, r, x, h1, h3, h4, same_texts e x h5 h6 hok htext⟩

theorem digChar_digVal {c : Char} (h : isDig c = true) : digVal c < 10 ∧ digChar (digVal c) = c := by
  unfold isDig at h
  simp only [Bool.and_eq_true, decide_eq_true_eq] at h
  have e0 : '0'.toNat = 48 := rfl
  have e9 : '9'.toNat = 57 := rfl
  unfold digVal digChar
  refine ⟨by omega, ?_⟩
  rw [show 48 + (c.toNat - 48) = c.toNat by omega]
  exact Char.ofNat_toNat c

/-- digits without a needless zero are the text of their number -/
theorem digits_dec : ∀ (n : Nat) (ds : CStr), ds.length = n → Digits ds → (∀ r, ds = '0' :: r → r = []) → ds = dec (digitsValue ds)
  | n, ds, hn, h, h0 => by
    rcases List.eq_nil_or_concat ds with rfl | ⟨as, c, rfl⟩
    · exact absurd rfl h.1
    · have hc := digChar_digVal (h.2 c (by simp))
      have hv : digitsValue (as ++ [c]) = digitsValue as * 10 + digVal c := by
        rw [digitsValue_append]; simp [digitsValue, digVal]
      rw [List.concat_eq_append] at *
      rw [hv]
      by_cases ha : as = []
      · subst ha
        rw [dec, if_pos (by simp [digitsValue]; omega)]
        simp [digitsValue, hc.2]
      · have hd : Digits as := ⟨ha, fun x hx => h.2 x (by simp [hx])⟩
        have hz : ∀ r, as = '0' :: r → r = [] := by
          intro r hr
          have := h0 (r ++ [c]) (by rw [hr]; rfl)
          simp at this
        have ih := digits_dec (n - 1) as (by simp at hn; omega) hd hz
        have hpos : digitsValue as ≠ 0 := by
          intro e
          rw [e] at ih
          have e0 : dec 0 = ['0'] := by rw [dec]; rfl
          rw [e0] at ih
          have := h0 [c] (by rw [ih]; rfl)
          cases this
        rw [dec, if_neg (by omega), show (digitsValue as * 10 + digVal c) / 10 = digitsValue as by omega, show (digitsValue as * 10 + digVal c) % 10 = digVal c by omega, ← ih, hc.2]
termination_by n => n
decreasing_by simp at hn; have := List.length_pos_iff.2 ha; omega

/-- the canonical text of a number is the one that is printed -/
theorem intText_print {v : Int} {s : CStr} (h : IntText v s) : s = printInt v := by
  obtain ⟨ds, h1, h2, h3, h4⟩ := h
  rw [h1]
  unfold printInt
  rw [← h3, ← digits_dec _ ds rfl h2 h4]

theorem atoi_run (neg : Bool) (ds rest : CStr) (h : Digits ds) (hr : NoDigit rest) :
    atoi ((if neg then ['-'] else []) ++ ds ++ rest) = if isI32 (if neg then -(digitsValue ds : Int) else digitsValue ds) then .ok (if neg then -(digitsValue ds : Int) else digitsValue ds) else .ub := by
  obtain ⟨c, cs, rfl⟩ : ∃ c cs, ds = c :: cs := by
    cases ds with
    | nil => exact absurd rfl h.1
    | cons c cs => exact ⟨c, cs, rfl⟩
  have hc : isDig c = true := h.2 c (by simp)
  have htw : (c :: cs ++ rest).takeWhile isDig = c :: cs := by
    rw [List.takeWhile_append_of_pos h.2]
    cases rest with
    | nil => simp
    | cons d rest =>
      have : isDig d = false := hr
      simp [List.takeWhile_cons, this]
  have hval : (c :: cs).foldl (fun x c => x * 10 + digVal c) 0 = digitsValue (c :: cs) := by
    have := valFrom_eq 0 (c :: cs); simpa [valFrom] using this
  have hm : (c == '-') = false := by simpa using isDig_ne_dash hc
  have hpl : (c == '+') = false := by simp; rintro rfl; revert hc; decide
  unfold atoi
  cases neg with
  | true =>
    have h1 : skipSpaces ('-' :: (c :: cs ++ rest)) = '-' :: (c :: cs ++ rest) := by
      have : isSpace '-' = false := by decide
      simp [skipSpaces, this]
    simp only [if_true, List.singleton_append, List.cons_append, List.nil_append] at h1 htw ⊢
    simp only [h1, peek, List.headD_cons, beq_self_eq_true, Bool.true_or, if_true, List.tail_cons, htw, hval]
  | false =>
    have h1 : skipSpaces (c :: (cs ++ rest)) = c :: (cs ++ rest) := by simp [skipSpaces, isDig_not_space hc]
    simp only [List.cons_append, List.nil_append, Bool.false_eq_true, if_false] at h1 htw ⊢
    simp only [h1, peek, List.headD_cons, hm, hpl, Bool.or_self, Bool.false_eq_true, if_false, htw, hval]

/-- what is read of a text that is stored as a 32-bit number -/
theorem int32_read {gm : Gm} {ftx : List UInt8 → CStr} {flt : CStr → List UInt8} {pt : BStr → XBT} {f : Img} {r : Rd} {e : Elem} {x : Int} {s : CStr} (hr : Reads flt pt f r e x) (he : e.value = .text s)
    (hs : detect s = INT32) : ∃ v, atoi s = .ok v ∧ f.itemText gm ftx x = .ok (printInt v) := by
  obtain ⟨name, value, params, children⟩ := e
  have he : value = .text s := he
  subst he
  unfold Reads at hr
  obtain ⟨-, -, -, ⟨d, d1, d2⟩, -⟩ := hr
  replace d1 : textData flt s (detect s) = some d := d1
  rw [hs] at d1
  unfold textData at d1
  simp only [fromString] at d1
  match ha : atoi s, d1 with
  | .ok v, d1 =>
    replace d1 : some (⟨INT32, le32 v⟩ : Data) = some d := d1
    cases d1
    have hv : isI32 v := by
      unfold atoi at ha
      extract_lets _ _ _ _ w at ha
      by_cases hw : isI32 w
      · rw [if_pos hw] at ha; injection ha with e; rw [← e]; exact hw
      · rw [if_neg hw] at ha; cases ha
    refine ⟨v, rfl, ?_⟩
    unfold Img.itemText
    rw [d2, Out.ok_bind]
    show Out.ok (printInt (rdI32 (le32 v))) = _
    rw [show rdI32 (le32 v) = v by simpa using rdI32_le32 v [] hv]
  | .fail, d1 => cases d1
  | .ub, d1 => cases d1

/-- C87 for whole numbers, exactly: the text of an element that is stored as a 32-bit number is read unchanged if and only if it is the canonical text of a number. -/
theorem C87_int32 (gm : Gm) (ftx : List UInt8 → CStr) (flt : CStr → List UInt8) (pt : BStr → XBT) (f : Img) (r : Rd) (e : Elem) (x : Int) (s : CStr) (hr : Reads flt pt f r e x) (he : e.value = .text s)
    (hs : detect s = INT32) : f.itemText gm ftx x = .ok s ↔ ∃ v, IntText v s := by
  obtain ⟨v, h1, h2⟩ := int32_read (gm := gm) (ftx := ftx) hr he hs
  constructor
  · intro h
    rw [h2] at h
    cases h
    exact ⟨v, printInt_text v⟩
  · rintro ⟨w, hw⟩
    have hw' := hw
    obtain ⟨ds, e1, e2, e3, e4⟩ := hw
    have hn : NoDigit [] := by decide
    have h3 := atoi_run (decide (w < 0)) ds [] e2 hn
    rw [e3] at h3
    have e5 : (if decide (w < 0) = true then ['-'] else []) ++ ds ++ [] = s := by
      rw [e1]; by_cases hneg : w < 0 <;> simp [hneg]
    have e6 : (if decide (w < 0) = true then -(w.natAbs : Int) else (w.natAbs : Int)) = w := by
      by_cases hneg : w < 0 <;> simp [hneg] <;> omega
    rw [e5, e6, h1] at h3
    split at h3
    · cases h3
      rw [h2, ← intText_print hw']
    · cases h3

/-- C87 is false in general: numbers lose the zeros in front of them, whatever the document and the file are. -/
theorem C87_zeros_false (gm : Gm) (ftx : List UInt8 → CStr) (flt : CStr → List UInt8) (pt : BStr → XBT) (f : Img) (r : Rd) (e : Elem) (x : Int) (ds : CStr) (hd : Digits ds) (hr : Reads flt pt f r e x) (he : e.value = .text ('0' :: ds))
    (hs : detect ('0' :: ds) = INT32) : f.itemText gm ftx x ≠ .ok ('0' :: ds) ∧ f.itemText gm ftx x = .ok (dec (digitsValue ds)) := by
  refine ⟨fun h => ?_, ?_⟩
  · obtain ⟨v, bs, b1, b2, b3, b4⟩ := (C87_int32 gm ftx flt pt f r e x _ hr he hs).1 h
    by_cases hv : v < 0
    · rw [if_pos hv] at b1; cases b1
    · rw [if_neg hv] at b1
      exact hd.1 (b4 ds b1.symm)
  · obtain ⟨v, h1, h2⟩ := int32_read (gm := gm) (ftx := ftx) hr he hs
    have h3 := atoi_run false ('0' :: ds) [] ⟨by simp, fun c hc => by rcases List.mem_cons.1 hc with rfl | hc; decide; exact hd.2 c hc⟩ (by decide)
    have hz : digitsValue ('0' :: ds) = digitsValue ds := by simp [digitsValue]
    simp only [Bool.false_eq_true, if_false, List.nil_append, List.append_nil, hz] at h3
    rw [h1] at h3
    split at h3
    · cases h3
      rw [h2]
      unfold printInt
      rw [if_neg (by omega), Int.natAbs_natCast]
    · cases h3

/-- C87 is false in general: of digits, a dash and more digits, like a telephone number, only what is before the dash is left, whatever the document and the file are. -/
theorem C87_dash_false (gm : Gm) (ftx : List UInt8 → CStr) (flt : CStr → List UInt8) (pt : BStr → XBT) (f : Img) (r : Rd) (e : Elem) (x : Int) (as bs : CStr) (ha : Digits as) (hr : Reads flt pt f r e x)
    (he : e.value = .text (as ++ '-' :: bs)) (hs : detect (as ++ '-' :: bs) = INT32) : f.itemText gm ftx x = .ok (dec (digitsValue as)) := by
  obtain ⟨v, h1, h2⟩ := int32_read (gm := gm) (ftx := ftx) hr he hs
  have h3 := atoi_run false as ('-' :: bs) ha (by show isDig '-' = false; decide)
  simp only [Bool.false_eq_true, if_false, List.nil_append] at h3
  rw [h1] at h3
  split at h3
  · cases h3
    rw [h2]
    unfold printInt
    rw [if_neg (by omega), Int.natAbs_natCast]
  · cases h3

/-- such texts are stored as 32-bit numbers -/
example : detect "007".toList = INT32 ∧ detect "555-1234".toList = INT32 ∧ Digits "07".toList ∧ Digits "555".toList := by decide +kernel

/-- the hypotheses of C87 are met by a document with a text, numbers, a decimal number, attributes and an element without a value -/
example (gm : Gm) (ftx : List UInt8 → CStr) : DocText gm ftx (docAttrType exDoc) exDoc := by
  have hi : docAttrType exDoc (b8 "id") = INT32 := by decide +kernel
  have hn : docAttrType exDoc (b8 "name") = STRING := by decide +kernel
  generalize docAttrType exDoc = pt at hi hn
  simp only [exDoc, DocText, DocTextAll, NodeText, and_true, true_and]
  have num : ∀ (n : Int) (s : String), detect2 s.toList INT32 = INT32 → (chunkText gm ftx INT32 (le32 n) = .ok s.toList) → AttrText gm ftx (pt (b8 "id")) (.text s.toList) := by
    intro n s h1 h2
    rw [hi]
    refine .inr ?_
    rw [h1]
    exact ⟨le32 n, le32_length _, h2⟩
  have hd : detect "3.5".toList = INT32_DECI := by decide +kernel
  refine ⟨.inl (by decide +kernel), ?_, ⟨.inr ?_, ?_⟩, by simp⟩
  · intro p hp
    rcases List.mem_cons.1 hp with rfl | hp
    · exact num 17 "17" (by decide +kernel) (by show Out.ok (printInt (rdI32 (le32 17))) = _; decide +kernel)
    · rcases List.mem_cons.1 hp with rfl | hp
      · refine .inl ?_
        show size2 (detect2 _ (pt (b8 "name"))) 0 ≠ 4
        rw [hn]
        decide +kernel
      · cases hp
  · rw [hd]
    refine ⟨le32 35, ?_, by simp only [chunkText]; decide +kernel⟩
    show _ ∧ _ ∧ _
    decide +kernel
  · intro p hp
    rcases List.mem_cons.1 hp with rfl | hp
    · exact num 18 "18" (by decide +kernel) (by show Out.ok (printInt (rdI32 (le32 18))) = _; decide +kernel)
    · cases hp

/-- the text of the root element of a document `<a>s</a>`, read from its file -/
def textOf (s : String) : Out CStr := rootOf (.mk (b8 "a") (.text s.toList) [] []) (fun f _ x => f.itemText (fun _ => (0, 0, 0)) (fun _ => []) x)

/-- C87 is false in general: texts that look like values are read as other texts, or not at all: a number with zeros in front, a telephone number, a hexadecimal
number, a decimal number between -1 and 0, one of four decimal places, an identifier of 16 bytes, and a word of letters from a to f. -/
theorem C87_texts_false : textOf "007" = .ok "7".toList ∧ textOf "555-1234" = .ok "555".toList ∧ textOf "0x10" = .ok "0".toList ∧ textOf "-0.5" = .ok "0.5".toList ∧
    textOf "1.2345" = .ok "1.234500".toList ∧ textOf "01234567-89ab-cdef-0123-456789abcdef" = .ok "0123456789abcdef0123456789abcdef".toList ∧ textOf "fade" = .fail := by
  decide +kernel

/-- the text of attribute `x` of the `i`-th child of the root element -/
def childAttrText (i : Int) (f : Img) (_ : Rd) (x : Int) : Out CStr := do
  match ← f.getChildByIndex x i with
  | none => .fail
  | some y => match ← f.getParamByIndex y 0 with
    | none => .fail
    | some p => f.attrText (fun _ => (0, 0, 0)) (fun _ => []) y p

/-- C87 is false of attributes too: in `<r><a x="1"/><a x="2.5"/></r>` the first one is read as `1.0`. -/
theorem C87_attr_false : rootOf (.mk (b8 "r") .none [] [.mk (b8 "a") .none [(b8 "x", .text "1".toList)] [], .mk (b8 "a") .none [(b8 "x", .text "2.5".toList)] []]) (childAttrText 0) = .ok "1.0".toList := by
  decide +kernel

end BX
