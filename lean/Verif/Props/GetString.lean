import Verif.Lemmas.GetString
import Verif.Props.ItemText
import Verif.Props.Dates
/-
Property C88: the texts of a document are given by `getString`.
-/
namespace BX
open XBT Spec

/-- `getString` of a value in the form of its type -/
theorem toStr_canon {gm : Gm} {ftx : List UInt8 → CStr} (hl : LibOk gm ftx) {t : XBT} {bs : List UInt8} {s : CStr} (ht : t ∈ strTypes) (hd : WholeData ⟨t, bs⟩) (h0 : s ≠ []) (h : chunkText gm ftx t bs = .ok s) {st : Texts}
    (hs : Asked gm ftx st) : ∃ st', st.toStr gm ftx ⟨t, bs⟩ = .ok (some s, st') := by
  have hb := inv_buffer (asked_inv hl hs)
  have hbt : buffered t = true := by
    revert ht; cases t <;> decide
  rw [toStr_buffered hbt]
  by_cases hp : plain t = true
  · obtain ⟨b', h1, -, h2⟩ := bufferPut_plain hl hd hp h hb
    rw [h1]
    exact ⟨_, by rw [← h2]; rfl⟩
  · have e : t = UNIX_DATE := by
      revert ht hp; cases t <;> decide
    subst e
    unfold chunkText at h
    simp only at h
    unfold bufferPut
    simp only
    cases hu : unixDate2Str (rdI32 bs) with
    | ok s' =>
      rw [hu] at h
      cases h
      have sh := date_short (le32_rdI32 bs (hd.1 (.inr rfl))).2 hu
      simp only
      rw [if_pos (show s.length + 1 ≤ (st.bufs.getD st.idx []).length by rw [hb]; have := sh.1; omega)]
      exact ⟨_, congrArg (fun t => Out.ok (some t, _)) (put_short (clear_length hb) sh).2⟩
    | fail => rw [hu] at h; cases h; exact absurd rfl h0
    | ub => rw [hu] at h; cases h

theorem canon_whole {gm : Gm} {t : XBT} {d : List UInt8} (ht : t ∈ strTypes) (h : TextSafe gm t d) : WholeData ⟨t, d⟩ := by
  unfold WholeData
  simp only
  revert ht h
  cases t <;> first | (intro ht; exact absurd ht (by decide)) | skip
  all_goals intro _ h
  all_goals simp only [TextSafe] at h
  all_goals simp [is4, is8, isINT32, h]

theorem node_str {gm : Gm} {flt : CStr → List UInt8} {ftx : List UInt8 → CStr} (hl : LibOk gm ftx) {v : SVal} (hok : NodeOk v) (h : NodeStr gm ftx v) {d : Data} (hd : nodeData flt v = some d) {st : Texts} (hs : Asked gm ftx st) :
    ∃ st', st.toStr gm ftx d = .ok (v.str, st') := by
  match v, hok, h, hd with
  | .none, _, _, hd => cases hd; exact ⟨st, rfl⟩
  | .text s, hok, h, hd =>
    replace hd : textData flt s (detect s) = some d := hd
    rcases h with h | ⟨h1, c, h2, h3⟩ | ⟨g, h1, rfl⟩
    · rw [h] at hd
      unfold textData fromString at hd
      cases hd
      exact ⟨st, congrArg (fun s => Out.ok (some s, st)) (toC_cBytes hok.1)⟩
    · have h0 : s ≠ [] := by rintro rfl; exact absurd h1 (by decide)
      obtain ⟨s', e1, e2⟩ := C58_roundtrip_partial gm flt ftx _ c h2 0 (s.length + 8)
      rw [h3] at e1
      cases e1
      unfold textData at hd
      rw [e2] at hd
      cases hd
      exact toStr_canon hl h1 (canon_whole h1 h2) h0 h3 hs
    · rw [detect_guid g h1] at hd
      unfold textData at hd
      rw [C58_guid flt g h1] at hd
      cases hd
      rw [toStr_buffered rfl, bufferPut_small.2.2, List.take_of_length_le (by show g.length ≤ 16; omega)]
      obtain ⟨b', p1, -, p2⟩ := Small.put_eq (.guid g) h1 _ (inv_buffer (asked_inv hl hs))
      rw [p1]
      have e := p2.2 (.inl rfl)
      exact ⟨_, by show Out.ok (some (bufText b'), _) = _; rw [e]; rfl⟩

theorem attr_str {gm : Gm} {flt : CStr → List UInt8} {ftx : List UInt8 → CStr} (hl : LibOk gm ftx) {t : XBT} {v : SVal} (hok : AttrOk t v) (h : AttrStr gm ftx t v) {st : Texts} (hs : Asked gm ftx st) :
    ∃ st', st.toStr gm ftx (attrData flt t v) = .ok (v.str, st') := by
  match v, hok, h with
  | .none, _, _ => exact ⟨st, rfl⟩
  | .text s, hok, h =>
    simp only [attrData]
    rw [if_neg h.1]
    by_cases h4 : size2 (detect2 s t) 0 = 4
    · rw [if_pos h4]
      rcases h.2 with h' | ⟨h1, c, h2, h3⟩
      · exact absurd h4 h'
      · obtain ⟨s', e1, e2⟩ := C58_roundtrip_partial gm flt ftx _ c h2 0 (s.length + 8)
        rw [h3] at e1
        cases e1
        unfold textData
        rw [e2]
        exact toStr_canon hl h1 (canon_whole h1 h2) h.1 h3 hs
    · rw [if_neg h4]
      exact ⟨st, congrArg (fun s => Out.ok (some s, st)) (toC_cBytes hok.1)⟩

/-- an attribute of four bytes, a string or nothing is printed from where `getData` finds it -/
theorem pRaw_of {f : Img} {x a : Int} {d : Data} (ha : a % 4 = 0) (h : f.pGetData x a = .ok d) (ht : is4 d.type = true ∨ d.type = STRING ∨ d.type = NULL) (hp : ∃ w, f.pData a = .ok w) : f.pRawValue x a = .ok d := by
  obtain ⟨w, hp⟩ := hp
  unfold Img.pGetData at h
  obtain ⟨c, h1, h⟩ := Out.bind_eq_ok h
  unfold Img.pRawValue
  rw [h1, Out.ok_bind]
  split at h
  · cases h
  · next t hc =>
    rw [hc]
    simp only
    rw [hp, Out.ok_bind]
    split at h
    · next h4 =>
      have e := content_keeps_type h
      have h4' : is4 t = true := h4
      have hx : xalign t = 4 ∧ t ≠ UNIX_DATE := by
        revert h4'; cases t <;> decide
      have hal : aaI (a + 4) = a + 4 := by unfold aaI; omega
      rw [if_pos h4', if_pos hx.1, if_neg hx.2, hal, h]
    · next h4 =>
      obtain ⟨q, h2, h⟩ := Out.bind_eq_ok h
      rw [hp] at h2
      cases h2
      have e := content_keeps_type h
      have hx : xalign t ≠ 4 ∧ xalign t ≠ 8 ∧ t ≠ UNIX_DATE := by
        rcases ht with ht | ht | ht
        · rw [e] at ht; exact absurd ht h4
        · rw [e] at ht; subst ht; decide
        · rw [e] at ht; subst ht; decide
      rw [if_neg h4, if_neg hx.1, if_neg hx.2.1, if_neg hx.2.2, h]

theorem pData_of {f : Img} {x a : Int} {d : Data} (h : f.pGetData x a = .ok d) : ∃ w, f.pData a = .ok w := by
  unfold Img.pGetData at h
  obtain ⟨c, h1, h⟩ := Out.bind_eq_ok h
  split at h
  · cases h
  · next t hc =>
    split at h
    · next h4 =>
      unfold Img.content at h
      rw [if_pos h4] at h
      obtain ⟨b, hb, -⟩ := Out.bind_eq_ok h
      unfold Img.pData Img.i32
      rw [hb]; exact ⟨_, rfl⟩
    · obtain ⟨q, h2, -⟩ := Out.bind_eq_ok h
      exact ⟨q, h2⟩

mutual
theorem same_strings {gm : Gm} {flt : CStr → List UInt8} {ftx : List UInt8 → CStr} (hlib : LibOk gm ftx) {pt : BStr → XBT} {f : Img} {r : Rd} : ∀ (e : Elem) (x : Int), Reads flt pt f r e x → Laid f e x → TreeOk pt e → DocStr gm ftx pt e →
    SameStrings gm ftx f e x
  | .mk name value params children, x, hr, hl, hok, hd => by
    unfold Reads at hr
    unfold TreeOk at hok
    unfold DocStr at hd
    unfold Laid at hl
    obtain ⟨-, -, r1, ⟨d, d1, d2⟩, r2, r3⟩ := hr
    obtain ⟨hx, len, own, -, -, -, hl⟩ := hl
    unfold SameStrings
    refine ⟨?_, ?_, r2, sames_strings hlib children x 0 _ _ r3 hl hok.2.2 hd.2.2⟩
    · intro st hs
      unfold Img.itemString
      rw [d2, Out.ok_bind]
      exact node_str hlib hok.1 hd.1 d1 hs
    · intro i hi
      obtain ⟨a, id, a1, -, -, a2⟩ := r1 i hi
      refine ⟨a, a1, ?_⟩
      have ha : a % 4 = 0 := by
        unfold Img.getParamByIndex at a1
        rw [if_neg (by omega)] at a1
        obtain ⟨pc, -, a1⟩ := Out.bind_eq_ok a1
        split at a1
        · cases a1
        · cases a1; omega
      have hm := List.getElem_mem hi
      have htx := hd.2.1 _ hm
      intro st hs
      unfold Img.attrString
      rw [pRaw_of ha a2 (attrData_type (hok.2.1 _ hm) (fun b s e => by rw [e] at htx; exact htx)) (pData_of a2), Out.ok_bind]
      exact attr_str hlib (hok.2.1 _ hm) htx hs
theorem sames_strings {gm : Gm} {flt : CStr → List UInt8} {ftx : List UInt8 → CStr} (hlib : LibOk gm ftx) {pt : BStr → XBT} {f : Img} {r : Rd} : ∀ (es : List Elem) (x : Int) (i : Nat) (lo hi : Int), ReadsAll flt pt f r es x i → LaidAll f es x i lo hi →
    TreeOkAll pt es → DocStrAll gm ftx pt es → SameStringsAll gm ftx f es x i
  | [], _, _, _, _, _, _, _, _ => by unfold SameStringsAll; trivial
  | e :: es, x, i, lo, hi, hr, hl, hok, hd => by
    unfold ReadsAll at hr
    unfold LaidAll at hl
    unfold TreeOkAll at hok
    unfold DocStrAll at hd
    obtain ⟨⟨y, y1, y2⟩, hr⟩ := hr
    obtain ⟨z, len, z1, -, -, -, -, z2, hl⟩ := hl
    rw [y1] at z1
    cases z1
    unfold SameStringsAll
    exact ⟨⟨y, y1, same_strings hlib e y y2 z2 hok.1 hd.1⟩, sames_strings hlib es x (i + 1) _ _ hr hl hok.2 hd.2⟩
end

/-- C88: a document whose texts are plain texts, or have the form of the type they look like, is converted and read: `getString` of every element and of every attribute, at any depth
and after any other texts were asked for, gives the text that it has in the document, and a null pointer if it has none.
Partial: as `C28_text_document_partial` (room, names, storable texts), and no 64-bit numbers and IPv4 addresses, see the theorems below. -/
theorem C88_strings_partial (gm : Gm) (ftx : List UInt8 → CStr) (hl : LibOk gm ftx) (flt : CStr → List UInt8) (hflt : ∀ s, (flt s).length = 4) (filename : BStr) (hfn : NoNul filename) (mtime : Int) (filesize : Nat)
    (hsz : 1024 + filesize * 4 < 2147483648) (m0 : Mem) (e : Elem) (hroom : needDoc filename e ≤ 1024 + filesize * 4) (hnames : NamesIn NoNul NoNul e)
    (htags : AtMost 32768 (tagOps e)) (hpars : AtMost 32768 (paramOps e)) (hdoc : TextDoc flt (docAttrType e) e) (hok : TreeOk (docAttrType e) e) (htext : DocStr gm ftx (docAttrType e) e) (fuel : Nat) :
    ∃ f r x, makeXb flt filename mtime filesize m0 e = .ok f ∧ f.initialize (fuel + 1) = .ok r ∧ r.root = some x ∧ SameStrings gm ftx f e x := by
  obtain ⟨f, h1, h2⟩ := C44_room_partial flt hflt filename mtime filesize m0 e hnames hpars hdoc hok hroom
  obtain ⟨r, x, h3, h4, h5, h6⟩ := C28_document_partial flt hflt filename hfn mtime filesize hsz m0 e f h1 (by omega) hnames htags hpars hok fuel
  exact ⟨f, r, x, h1, h3, h4, same_strings hl e x h5 h6 hok htext⟩

theorem textData_type {flt : CStr → List UInt8} {s : CStr} {t : XBT} {d : Data} (h : textData flt s t = some d) : d.type = t := by
  unfold textData at h
  split at h
  · cases h; rfl
  · cases h

/-- C88 is false in general: `getString` gives a null pointer for every text that is stored as an IPv4 address. -/
theorem C88_ipv4_false (gm : Gm) (ftx : List UInt8 → CStr) (flt : CStr → List UInt8) (pt : BStr → XBT) (f : Img) (r : Rd) (e : Elem) (x : Int) (s : CStr) (hr : Reads flt pt f r e x) (he : e.value = .text s)
    (hs : detect s = IPv4) (st : Texts) : f.itemString gm ftx x st = .ok (none, st) := by
  obtain ⟨name, value, params, children⟩ := e
  have he : value = .text s := he
  subst he
  unfold Reads at hr
  obtain ⟨-, -, -, ⟨d, d1, d2⟩, -⟩ := hr
  have ht := textData_type (flt := flt) (s := s) (t := detect s) d1
  rw [hs] at ht
  obtain ⟨t, bs⟩ := d
  cases ht
  unfold Img.itemString
  rw [d2]
  rfl

/-- C88 for 64-bit numbers, exactly: the text is the one of the document if and only if the buffer that is used has its end behind it, because it was never used before or by
the texts that were printed there before. -/
theorem C88_int64 (gm : Gm) (ftx : List UInt8 → CStr) (hl : LibOk gm ftx) (flt : CStr → List UInt8) (pt : BStr → XBT) (f : Img) (r : Rd) (e : Elem) (x : Int) (s : CStr) (hr : Reads flt pt f r e x)
    (he : e.value = .text s) (hs : detect s = INT64) (v : Int) (hv : isI64 v) (h0 : v ≠ 0) (h1 : v ≠ INT64_MIN) (h2 : v ≠ -576460752303423488) (hd : s = printInt v) (st : Texts) (ha : Asked gm ftx st) :
    ∃ s' st', f.itemString gm ftx x st = .ok (some s', st') ∧ (s' = s ↔ (st.bufs.getD st.idx [])[s.length]? = some '\x00') := by
  obtain ⟨name, value, params, children⟩ := e
  have he : value = .text s := he
  subst he
  unfold Reads at hr
  obtain ⟨-, -, -, ⟨d, d1, d2⟩, -⟩ := hr
  replace d1 : textData flt s (detect s) = some d := d1
  have r64 : rdI64 (le64 v) = v := by simpa using rdI64_le64 v [] hv
  have hp : printInt64Chunk v = .ok (printInt v) := by
    unfold printInt64Chunk printInt
    rw [if_neg h0, if_neg h2, if_neg h1, decLoop_eq _ _ (by omega), List.append_nil]
  obtain ⟨s', e1, e2⟩ := C58_roundtrip_partial gm flt ftx INT64 (le64 v) ⟨le64_length v, by rw [r64]; exact h1, by rw [r64]; exact h2⟩ 0 (s.length + 8)
  have e3 : chunkText gm ftx INT64 (le64 v) = .ok s := by
    show printInt64Chunk (rdI64 (le64 v)) = _
    rw [r64, hp, hd]
  rw [e3] at e1
  cases e1
  rw [hs] at d1
  unfold textData at d1
  rw [e2] at d1
  cases d1
  unfold Img.itemString
  rw [d2, Out.ok_bind, toStr_buffered rfl, bufferPut_small.1]
  show ∃ s' st', Out.bind ((Small.int64 (rdI64 (le64 v))).put _) _ = _ ∧ _
  rw [r64]
  obtain ⟨b', p1, -, p2⟩ := Small.put_eq (.int64 v) ⟨hv, h1⟩ _ (inv_buffer (asked_inv hl ha))
  rw [p1]
  have et : (Small.int64 v).text = s := by show (if v = -576460752303423488 then _ else printInt v) = s; rw [if_neg h2, hd]
  have ef : (Small.int64 v).terminated = false := by simp [Small.terminated, h0, h2]
  rw [et, ef] at p2
  exact ⟨_, _, rfl, by simpa using p2⟩

/-- the text in a buffer whose last byte is cleared -/
theorem bufText_clear {b : CStr} (hb : b.length = 257) : bufText (bufPut b (b.length - 1) ['\x00']) = (bufText b).take 256 := by
  have key : ∀ (n : Nat) (b : CStr), b.length = n + 1 → (b.take n ++ ['\x00']).takeWhile (· ≠ '\x00') = (b.takeWhile (· ≠ '\x00')).take n := by
    intro n
    induction n with
    | zero => intro b _; simp
    | succ n ih =>
      intro b hb
      cases b with
      | nil => simp at hb
      | cons c b =>
        simp only [List.take_succ_cons, List.cons_append, List.takeWhile_cons]
        split
        · rw [ih b (by simpa using hb), List.take_succ_cons]
        · simp
  have e : bufPut b (b.length - 1) ['\x00'] = b.take 256 ++ ['\x00'] := by
    unfold bufPut
    rw [hb, List.drop_eq_nil_of_le (by simp; omega), List.append_nil]
  rw [e]
  exact key 256 b hb

/-- C88 is false in general: for a date that the library cannot print (31 December of a leap year) `getString` gives what was printed into the same buffer before: the text of some other value. -/
theorem C88_date_false (gm : Gm) (ftx : List UInt8 → CStr) (hl : LibOk gm ftx) (flt : CStr → List UInt8) (pt : BStr → XBT) (f : Img) (r : Rd) (e : Elem) (x : Int) (s : CStr) (hr : Reads flt pt f r e x)
    (he : e.value = .text s) (bs : List UInt8) (hd : textData flt s (detect s) = some ⟨UNIX_DATE, bs⟩) (hf : unixDate2Str (rdI32 bs) = .fail) (st : Texts) (ha : Asked gm ftx st) :
    ∃ st', f.itemString gm ftx x st = .ok (some ((st.text st.idx).take 256), st') := by
  obtain ⟨name, value, params, children⟩ := e
  have he : value = .text s := he
  subst he
  unfold Reads at hr
  obtain ⟨-, -, -, ⟨d, d1, d2⟩, -⟩ := hr
  replace d1 : textData flt s (detect s) = some d := d1
  rw [hd] at d1
  cases d1
  unfold Img.itemString
  rw [d2, Out.ok_bind, toStr_buffered rfl]
  unfold bufferPut
  simp only
  rw [hf]
  exact ⟨_, congrArg (fun t => Out.ok (some t, _)) (bufText_clear (inv_buffer (asked_inv hl ha)))⟩

/-- such a date, and a number and an address of the theorems above -/
example : textData (fun _ => [0,0,0,0]) "2020-12-31".toList (detect "2020-12-31".toList) = some ⟨UNIX_DATE, le32 18627⟩ ∧ unixDate2Str (rdI32 (le32 18627)) = .fail ∧
    detect "5000000000".toList = INT64 ∧ "5000000000".toList = printInt 5000000000 ∧ detect "10.0.0.1".toList = IPv4 := by
  decide +kernel

/-- `getString` of the root element of `<a>s</a>`, after `getString` was called for the values of `ds` -/
def stringOf (s : String) (ds : List Data) : Out (Option CStr) := do
  let st ← ds.foldlM (fun st d => do let r ← st.toStr (fun _ => (0, 0, 0)) (fun _ => []) d; return r.2) Texts.init
  rootOf (.mk (b8 "a") (.text s.toList) [] []) (fun f _ x => do let r ← f.itemString (fun _ => (0, 0, 0)) (fun _ => []) x st; return r.1)

/-- C88 is false: the last day of a leap year is read as the number that was read 64 texts before, a number of ten digits gets digits of another one, an address has no text. -/
theorem C88_strings_false : stringOf "2020-12-31" (List.replicate 64 ⟨INT32, le32 42⟩) = .ok (some "42".toList) ∧
    stringOf "5000000000" (List.replicate 64 ⟨INT64, le64 1234567890123⟩) = .ok (some "5000000000123".toList) ∧ stringOf "10.0.0.1" [] = .ok none := by
  decide +kernel

/-- the hypotheses of C88 are met by the document of the example of C87, with a GUID as value -/
example (gm : Gm) (ftx : List UInt8 → CStr) : NodeStr gm ftx (.text "01234567-89ab-cdef-0123-456789abcdef".toList) ∧ NodeStr gm ftx (.text "3.5".toList) ∧ NodeStr gm ftx (.text "total: 12".toList) ∧ NodeStr gm ftx .none ∧
    AttrStr gm ftx INT32 (.text "17".toList) ∧ AttrStr gm ftx STRING (.text "desk lamp".toList) ∧ LibOk (fun _ => (1970, 1, 1)) (fun _ => "0.5".toList) := by
  refine ⟨.inr (.inr ⟨[0x01,0x23,0x45,0x67,0x89,0xab,0xcd,0xef,0x01,0x23,0x45,0x67,0x89,0xab,0xcd,0xef], rfl, by decide +kernel⟩), .inr (.inl ?_), .inl (by decide +kernel), trivial, ⟨by decide, .inr ?_⟩, ⟨by decide, .inl (by decide +kernel)⟩, ?_⟩
  · rw [show detect "3.5".toList = INT32_DECI by decide +kernel]
    refine ⟨by decide, le32 35, ?_, by simp only [chunkText]; decide +kernel⟩
    show _ ∧ _ ∧ _
    decide +kernel
  · rw [show detect2 "17".toList INT32 = INT32 by decide +kernel]
    exact ⟨by decide, le32 17, le32_length _, by show Out.ok (printInt (rdI32 (le32 17))) = _; decide +kernel⟩
  · exact ⟨fun _ => by simp, fun _ => by simp⟩

end BX
