import Verif.Lemmas.Edit
import Verif.Lemmas.MakeXbw
import Verif.Spec.Retype
import Verif.Props.Source
/-
C80: an element gets another type, an element is made of a text of any type, and the check of the tables of symbols.
-/
namespace BX
open XBT Spec

theorem sameForm_iff (a b : XBT) : (b = a ∨ (is4 b = true ∧ is4 a = true) ∨ (is8 b = true ∧ is8 a = true) ∨ (isVarsize b = true ∧ isVarsize a = true)) ↔ (b = a ∨ SameForm a b) := by
  have h4 : ∀ t : XBT, is4 t = true ↔ t ∈ fourBytes := by intro t; cases t <;> decide
  have h8 : ∀ t : XBT, is8 t = true ↔ t ∈ eightBytes := by intro t; cases t <;> decide
  have hv : ∀ t : XBT, isVarsize t = true ↔ t ∈ ownLength := by intro t; cases t <;> decide
  unfold SameForm
  rw [h4, h4, h8, h8, hv, hv]
  constructor
  · rintro (h | ⟨h, h'⟩ | ⟨h, h'⟩ | ⟨h, h'⟩)
    · exact Or.inl h
    · exact Or.inr (Or.inl ⟨h', h⟩)
    · exact Or.inr (Or.inr (Or.inl ⟨h', h⟩))
    · exact Or.inr (Or.inr (Or.inr ⟨h', h⟩))
  · rintro (h | ⟨h, h'⟩ | ⟨h, h'⟩ | ⟨h, h'⟩)
    · exact Or.inl h
    · exact Or.inr (Or.inl ⟨h', h⟩)
    · exact Or.inr (Or.inr (Or.inl ⟨h', h⟩))
    · exact Or.inr (Or.inr (Or.inr ⟨h', h⟩))

theorem retype_total {P : Pool} {D : Doc} {els V fl} (h : Keeps P D els V fl) {e : Nat} (he : D.forest.Elem e) (t : XBT) : ∃ Q r, P.retype e t = .ok (Q, r) := by
  have hx := h.elem e ((h.lists.mem e).1 he)
  have hhi := hx.hi
  have hle := h.sees.ok.le
  have hli := h.sees.ok.lim
  have hty : P.eType e = .ok (D.type e).code := by
    unfold Pool.eType
    exact Img.u8_ok (f := P.img) hx.ty (by show _ ≤ P.fileSize; omega) _ (by omega)
  have hw : P.wr ((e : Int) + 7) [t.code] = .ok { P with mem := memPut P.mem (e + 7) [t.code] } := Pool.wr_eq (by simp only [List.length_cons, List.length_nil]; omega) _ (by omega)
  unfold Pool.retype
  rw [hty, Out.ok_bind]
  split
  · exact ⟨_, _, rfl⟩
  · split
    · rw [hw]; exact ⟨_, _, rfl⟩
    · exact ⟨_, _, rfl⟩

/-- C80: after any history of a writable document, changing the type of an element succeeds exactly if the new type is the old one or its values have the same
form. If it succeeds, only the type of this element has changed; if it is refused, nothing has. -/
theorem C80_retype (E : Env) (maxSize : Nat) (h1 : 0x4000 ≤ maxSize) (h2 : maxSize < 2147483648) (P : Pool) (D : Doc) (h : Sess E maxSize P D) (e : Nat) (he : D.forest.Elem e) (t : XBT) :
    ∃ Q r, P.retype e t = .ok (Q, r) ∧ (r = true ↔ t = D.type e ∨ SameForm (D.type e) t) ∧ (r = true → Sess E maxSize Q (D.withType e t) ∧ Q.eType e = .ok t.code) ∧ (r = false → Q = P) := by
  obtain ⟨els, V, fl, kp⟩ := sess_keeps h1 h2 h
  obtain ⟨Q, r, hr⟩ := retype_total kp he t
  refine ⟨Q, r, hr, ?_, ?_, ?_⟩
  · rw [← sameForm_iff]
    rcases elemRetype_spec kp he hr with ⟨rfl, -, a, b, c, d⟩ | ⟨rfl, -, a⟩
    · exact ⟨fun hc => (by cases hc), fun hc => by rcases hc with hc | hc | hc | hc; exact absurd hc a; exact absurd hc b; exact absurd hc c; exact absurd hc d⟩
    · exact ⟨fun _ => a, fun _ => rfl⟩
  · rintro rfl
    have hs := Sess.retyped h he hr
    refine ⟨hs, ?_⟩
    obtain ⟨els', V', fl', kp'⟩ := sess_keeps h1 h2 hs
    have hx := kp'.elem e ((kp'.lists.mem e).1 he)
    have hhi := hx.hi
    have hle := kp'.sees.ok.le
    have := kp'.sees.size
    have hty : (D.withType e t).type e = t := if_pos rfl
    rw [hty] at hx
    unfold Pool.eType
    exact Img.u8_ok (f := Q.img) hx.ty (by show _ ≤ Q.fileSize; omega) _ (by omega)
  · rintro rfl
    rcases elemRetype_spec kp he hr with ⟨-, a, -⟩ | ⟨a, -⟩
    · exact a
    · cases a

/-- C80: the value that was read under the old type is read, byte for byte, under the new one. -/
theorem C80_value (E : Env) (maxSize : Nat) (h1 : 0x4000 ≤ maxSize) (h2 : maxSize < 2147483648) (P Q : Pool) (D : Doc) (h : Sess E maxSize P D) (e : Nat) (he : D.forest.Elem e) (t : XBT)
    (hr : P.retype e t = .ok (Q, true)) (hg : GoodVal (D.type e) (D.val e)) : ∃ v, elemValue P e = .ok ⟨D.type e, v⟩ ∧ elemValue Q e = .ok ⟨t, v⟩ := by
  obtain ⟨els, V, fl, kp⟩ := sess_keeps h1 h2 h
  have hs := Sess.retyped h he hr
  obtain ⟨els', V', fl', kp'⟩ := sess_keeps h1 h2 hs
  have hx := kp.elem e ((kp.lists.mem e).1 he)
  have hx' := kp'.elem e ((kp'.lists.mem e).1 he)
  have hty : (D.withType e t).type e = t := if_pos rfl
  rw [hty] at hx'
  have hv : (D.withType e t).val e = D.val e := rfl
  rw [hv] at hx'
  have key : ∀ (a b : XBT) (v : List UInt8), (b = a ∨ (is4 b = true ∧ is4 a = true) ∨ (is8 b = true ∧ is8 a = true) ∨ (isVarsize b = true ∧ isVarsize a = true)) → GoodVal a v → GoodVal b v ∧ readable a v = readable b v := by
    intro a b v hab hg
    rcases hab with rfl | ⟨c, d⟩ | ⟨c, d⟩ | ⟨c, d⟩
    · exact ⟨hg, rfl⟩
    · have g4 : ∀ t : XBT, is4 t = true → (GoodVal t v ↔ v.length = 4) ∧ readable t v = v := by
        intro t ht; cases t <;> first | (exact absurd ht (by decide)) | exact ⟨by simp [GoodVal, is4, isINT32], rfl⟩
      exact ⟨(g4 b c).1.2 ((g4 a d).1.1 hg), by rw [(g4 a d).2, (g4 b c).2]⟩
    · have g8 : ∀ t : XBT, is8 t = true → (GoodVal t v ↔ (v.length : Int) = 8) ∧ readable t v = v := by
        intro t ht; cases t <;> first | (exact absurd ht (by decide)) | exact ⟨by simp [GoodVal, is4, isINT32, fixedSize], rfl⟩
      exact ⟨(g8 b c).1.2 ((g8 a d).1.1 hg), by rw [(g8 a d).2, (g8 b c).2]⟩
    · have gv : ∀ t : XBT, isVarsize t = true → (GoodVal t v ↔ ∃ bs, v = le32 (bs.length : Int) ++ bs ∧ bs.length + 4 < 2147483648) ∧ readable t v = v := by
        intro t ht; cases t <;> first | (exact absurd ht (by decide)) | exact ⟨by simp [GoodVal], rfl⟩
      exact ⟨(gv b c).1.2 ((gv a d).1.1 hg), by rw [(gv a d).2, (gv b c).2]⟩
  have hc : t = D.type e ∨ (is4 t = true ∧ is4 (D.type e) = true) ∨ (is8 t = true ∧ is8 (D.type e) = true) ∨ (isVarsize t = true ∧ isVarsize (D.type e) = true) := by
    rcases elemRetype_spec kp he hr with ⟨a, -⟩ | ⟨-, -, a⟩
    · cases a
    · exact a
  obtain ⟨k1, k2⟩ := key _ _ _ hc hg
  refine ⟨readable t (D.val e), ?_, elemValue_read hx' kp'.sees.size.1 k1⟩
  rw [← k2]
  exact elemValue_read hx kp.sees.size.1 hg

/-- the hypotheses of `C80_retype` and `C80_value` are met by a document with elements, attributes and symbols -/
example : ∃ D, Sess demoEnv 0x8000 box5 D ∧ D.forest.Elem 164 ∧ GoodVal (D.type 164) (D.val 164) ∧ SameForm (D.type 164) UNIX_TIME ∧ ∃ Q, box5.retype 164 UNIX_TIME = .ok (Q, true) ∧ elemValue Q 164 = .ok ⟨UNIX_TIME, le32 5⟩ := by
  obtain ⟨D, h, -, -, h4, -, -, -, -, -, -, -, -, hg, -, -, ht⟩ := box_sess
  obtain ⟨Q, r, q1, q2, -, -⟩ := C80_retype demoEnv 0x8000 (by decide) (by decide) box5 D h 164 h4 UNIX_TIME
  have hf : SameForm (D.type 164) UNIX_TIME := by rw [ht]; unfold SameForm; decide
  rw [q2.2 (Or.inr hf)] at q1
  obtain ⟨v, v1, v2⟩ := C80_value demoEnv 0x8000 (by decide) (by decide) box5 Q D h 164 h4 UNIX_TIME q1 hg
  refine ⟨D, h, h4, hg, hf, Q, q1, ?_⟩
  replace v1 : elemValue box5 164 = .ok ⟨D.type 164, v⟩ := v1
  replace v2 : elemValue Q 164 = .ok ⟨UNIX_TIME, v⟩ := v2
  rw [v2]
  have : (elemValue box5 164).bind (fun d => .ok d.bytes) = .ok (le32 5) := by decide +kernel
  rw [v1] at this
  simp only [Out.bind, Out.ok.injEq] at this
  rw [this]

/-- C80 (false in general): a day is stored in four bytes as a number is, but an element with a number cannot become one with a day, nor the reverse; nor can a GUID become
an address of sixteen bytes. -/
theorem C80_day_false (E : Env) (maxSize : Nat) (h1 : 0x4000 ≤ maxSize) (h2 : maxSize < 2147483648) (P : Pool) (D : Doc) (h : Sess E maxSize P D) (e : Nat) (he : D.forest.Elem e) :
    (D.type e = INT32 → P.retype e UNIX_DATE = .ok (P, false)) ∧ (D.type e = UNIX_DATE → P.retype e INT32 = .ok (P, false)) ∧ (D.type e = GUID → P.retype e IPv6 = .ok (P, false)) := by
  have key : ∀ t, t ≠ D.type e → ¬ SameForm (D.type e) t → P.retype e t = .ok (P, false) := by
    intro t a b
    obtain ⟨Q, r, q1, q2, -, q4⟩ := C80_retype E maxSize h1 h2 P D h e he t
    cases r with
    | true => rcases q2.1 rfl with c | c; exact absurd c a; exact absurd c b
    | false => rw [q4 rfl] at q1; exact q1
  refine ⟨fun hc => key _ ?_ ?_, fun hc => key _ ?_ ?_, fun hc => key _ ?_ ?_⟩ <;> rw [hc] <;> first | decide | (unfold SameForm; decide)

/-! ### elements made of texts -/

/-- C80 (partial): after any history of a writable document, an element that is made of a text with the size of its value has the value the text stands for,
and nothing else has changed. What is missing: the size is not checked for a text (`C80_short_false`), and a value in hexadecimal digits is cut off or destroys memory (`C80_hex_false`);
digests have four bytes of unknown content behind them. -/
theorem C80_any_partial (E : Env) (maxSize : Nat) (h1 : 0x4000 ≤ maxSize) (h2 : maxSize < 2147483648) (flt : CStr → List UInt8) (hflt : ∀ s, (flt s).length = 4) (P Q : Pool) (D : Doc) (h : Sess E maxSize P D)
    (id : Int) (hid : Is16 id) (t : XBT) (ht : t ≠ HEX ∧ t ≠ SHA1 ∧ t ≠ UNIX_DATE) (s : CStr) (hs : CText s) (size : Nat) (hz : t = STRING → size = s.length) (o : Nat)
    (hr : P.tagAny E flt id t s size = .ok (Q, some o)) :
    ∃ D' d, textData flt s t = some d ∧ Sess E maxSize Q D' ∧ GotElem o D D' ∧ D'.id o = id ∧ D'.type o = t ∧ elemValue Q o = .ok d := by
  obtain ⟨els, V, fl, kp⟩ := sess_keeps h1 h2 h
  obtain ⟨N, hN⟩ := sess_loose h
  have hk := hN N (Nat.le_refl _)
  unfold Pool.tagAny at hr
  obtain ⟨⟨Q1, r⟩, hne, hr⟩ := Out.bind_eq_ok hr
  cases r with
  | none => cases hr
  | some o' =>
    obtain ⟨Q2, hini, hr⟩ := Out.bind_eq_ok hr
    simp only at hr hini
    split at hr
    · cases hr
    · cases hr
    · next w hw =>
      obtain ⟨Q3, hwr, hr⟩ := Out.bind_eq_ok hr
      cases hr
      obtain ⟨g1, g2, g3, g4, n, g5, g6, g7⟩ := fromString_plain hflt hs hw ht.1 ht.2.1
      obtain ⟨g, hg⟩ := newElement_spec kp.sees.ok hne
      obtain ⟨hpos, hlo, ho4, ho8, hhi, -⟩ := hg o rfl
      have hle := g.ok.le
      have hli := g.ok.lim
      have hmap := g.ok.map
      have hsmall := kp.sees.small
      have hmm := g.map
      have hsz : size2 t size = (w.bytes.length : Int) := by
        rw [← g6]
        by_cases hst : t = STRING
        · subst hst
          rw [hz rfl]
          simp only [sizeFromString] at g5
          injection g5 with g5
          simp only [size2]
          omega
        · clear g1 g2 g3 hne hini
          cases t <;> first | (exact absurd rfl hst) | (cases hw; done) | (exact absurd g7 (by decide)) | (cases g5; simp only [size2] at hpos g6 ⊢; repeat' split at hpos <;> simp_all <;> omega) | (exact absurd hpos (by simp [size2]))
      rw [g4, g2, fsStart_here ho4 ho8] at hwr
      simp only [List.replicate_zero, List.append_nil] at hwr
      have hf : ∀ x, sizeField t x = [] := fun x => by unfold sizeField; rw [if_neg (by rw [g7]; simp)]
      have hmk : P.make E id t size (tagFlag true) (sizeField t 0).length w.bytes = .ok (Q, some o) := by
        unfold Pool.make
        rw [hne]
        simp only [Out.ok_bind]
        have : tagFlag true = 1 := rfl
        rw [this, hini, Out.ok_bind, hf]
        simp only [List.length_nil, Int.natCast_zero, Int.add_zero]
        have e : ((o + 24 : Nat) : Int) = (o : Int) + 24 := by omega
        rw [e] at hwr
        rw [hwr]
        rfl
      have hS := Sess.made (b := true) (k := N) h hid (by rw [hf, hsz]; simp) hmk hk
      rw [hf, List.nil_append] at hS
      have ho := fresh_elem kp hlo
      rw [hsz] at hhi
      have hgood := sized_good g3 ht.2.2 (by show w.bytes.length < _; omega)
      obtain ⟨els', V', fl', kp'⟩ := sess_keeps h1 h2 hS
      have hl : (D.plus N o true id t w.bytes).forest.at' (.loose N) = [o] := if_pos rfl
      have hx := kp'.elem o ((kp'.lists.mem o).1 ⟨.loose N, by rw [hl]; simp⟩)
      have hty : (D.plus N o true id t w.bytes).type o = t := if_pos rfl
      have hval : (D.plus N o true id t w.bytes).val o = w.bytes := if_pos rfl
      have hidd : (D.plus N o true id t w.bytes).id o = id := if_pos rfl
      rw [hty, hval, hidd] at hx
      refine ⟨_, _, g1, hS, plus_got h1 h2 h ho hk, hidd, hty, ?_⟩
      rw [elemValue_read hx kp'.sees.size.1 hgood.1]
      have := hgood.2
      simp only at this
      rw [this]

/-- the hypotheses of `C80_any_partial` are met: the text "-17" in a document with elements and symbols -/
example : ∃ D, Sess demoEnv 0x8000 box5 D ∧ CText "-17".toList ∧ ∃ Q o, box5.tagAny demoEnv (fun _ => [0, 0, 0, 0]) 1 INT32 "-17".toList 0 = .ok (Q, some o) ∧ textData (fun _ => [0, 0, 0, 0]) "-17".toList INT32 = some ⟨INT32, le32 (-17)⟩ := by
  obtain ⟨D, h, -⟩ := box_sess
  have r : box5.tagAny demoEnv (fun _ => [0, 0, 0, 0]) 1 INT32 "-17".toList 0 = .ok (poolOf (box5.tagAny demoEnv (fun _ => [0, 0, 0, 0]) 1 INT32 "-17".toList 0), some 220) := poolOf_eq (by decide +kernel)
  exact ⟨D, h, by unfold CText; decide, _, _, r, by decide +kernel⟩

/-- C80: a text that cannot be converted leaves no trace but a detached element: all that was there before is as it was. -/
theorem C80_failed (E : Env) (maxSize : Nat) (h1 : 0x4000 ≤ maxSize) (h2 : maxSize < 2147483648) (flt : CStr → List UInt8) (P Q : Pool) (D : Doc) (h : Sess E maxSize P D)
    (id : Int) (hid : Is16 id) (t : XBT) (s : CStr) (size : Nat) (hr : P.tagAny E flt id t s size = .ok (Q, none)) :
    Sess E maxSize Q D ∨ ∃ D' o, Sess E maxSize Q D' ∧ GotElem o D D' ∧ D'.id o = id ∧ D'.type o = t := by
  obtain ⟨els, V, fl, kp⟩ := sess_keeps h1 h2 h
  obtain ⟨N, hN⟩ := sess_loose h
  have hk := hN N (Nat.le_refl _)
  unfold Pool.tagAny at hr
  obtain ⟨⟨Q1, r⟩, hne, hr⟩ := Out.bind_eq_ok hr
  cases r with
  | none =>
    cases hr
    left
    refine Sess.refused (id := id) (t := t) (size := size) (off := 0) (b := true) (bs := []) h ?_
    unfold Pool.make
    rw [hne]
    rfl
  | some o =>
    right
    obtain ⟨Q2, hini, hr⟩ := Out.bind_eq_ok hr
    simp only at hr hini
    split at hr
    · cases hr
    · cases hr
      obtain ⟨g, hg⟩ := newElement_spec kp.sees.ok hne
      obtain ⟨hpos, hlo, ho4, ho8, hhi, -⟩ := hg o rfl
      have hle := g.ok.le
      have hli := g.ok.lim
      have hfs : Q.fileSize = Q1.fileSize := by
        unfold Pool.initElem at hini
        obtain ⟨-, -, -, rfl⟩ := Pool.wr_ok hini
        rfl
      have hlen : (sizeField t 0).length ≤ (size2 t size).toNat := by
        unfold sizeField
        split
        · next hv =>
          have : (le32 0).length = 4 := leN_length _ _
          rw [this]
          cases t <;> first | (exact absurd hv (by decide)) | (simp only [size2]; omega)
        · simp
      have hmk : P.make E id t size (tagFlag true) (sizeField t 0).length (slice Q.mem (o + 24 + (sizeField t 0).length) ((size2 t size).toNat - (sizeField t 0).length)) = .ok (Q, some o) := by
        unfold Pool.make
        rw [hne]
        simp only [Out.ok_bind]
        have : tagFlag true = 1 := rfl
        rw [this, hini, Out.ok_bind]
        rw [Pool.wr_eq (a := o + 24 + (sizeField t 0).length) (by rw [slice_length]; omega) _ (by omega), memPut_has (by unfold Has; rw [slice_length])]
        rfl
      have hS := Sess.made (b := true) (k := N) h hid (by rw [slice_length]; omega) hmk hk
      exact ⟨_, o, hS, plus_got h1 h2 h (fresh_elem kp hlo) hk, if_pos rfl, if_pos rfl⟩
    · obtain ⟨Q3, hwr, hr⟩ := Out.bind_eq_ok hr
      cases hr

/-- the hypotheses of `C80_failed` are met: the text is no GUID -/
example : ∃ D, Sess demoEnv 0x8000 box5 D ∧ ∃ Q, box5.tagAny demoEnv (fun _ => [0, 0, 0, 0]) 1 GUID "x".toList 16 = .ok (Q, none) := by
  obtain ⟨D, h, -⟩ := box_sess
  have r : (box5.tagAny demoEnv (fun _ => [0, 0, 0, 0]) 1 GUID "x".toList 16).bind (fun r => .ok r.2) = .ok none := by decide +kernel
  refine ⟨D, h, ?_⟩
  obtain ⟨⟨Q, x⟩, r1, r2⟩ := Out.obind_eq_ok r
  cases r2
  exact ⟨Q, r1⟩

/-- a document that holds one element with the text "abcdefgh", made with the size 0 -/
def short1 : Pool := poolOf ((Pool.empty 0x8000).tagAny demoEnv (fun _ => [0, 0, 0, 0]) 0 STRING "abcdefgh".toList 0)
/-- one more element -/
def short2 : Pool := poolOf (short1.make demoEnv 0 NULL 0 (tagFlag true) 0 [])

/-- C80 (false in general): the given size is not compared with the text. The text is stored all the same, and making the next element destroys it. -/
theorem C80_short_false : (Pool.empty 0x8000).tagAny demoEnv (fun _ => [0, 0, 0, 0]) 0 STRING "abcdefgh".toList 0 = .ok (short1, some 92) ∧ short1.img.str (92 + 24) = .ok (b8 "abcdefgh") ∧
    short1.make demoEnv 0 NULL 0 (tagFlag true) 0 [] = .ok (short2, some 120) ∧ short2.img.str (92 + 24) = .ok (b8 "abcdx") :=
  ⟨poolOf_eq (by decide +kernel), by decide +kernel, poolOf_eq (by decide +kernel), by decide +kernel⟩

/-- C80 (false in general): with a size of less than four bytes, an element of hexadecimal digits that is given any text destroys memory. -/
theorem C80_hex_false (E : Env) (maxSize : Nat) (h1 : 0x4000 ≤ maxSize) (h2 : maxSize < 2147483648) (flt : CStr → List UInt8) (P Q : Pool) (D : Doc) (h : Sess E maxSize P D) (id : Int) (s : CStr) (size : Nat) (hz : size < 4)
    (o : Nat) (hn : P.newElement E HEX size = .ok (Q, some o)) : P.tagAny E flt id HEX s size = .ub := by
  obtain ⟨els, V, fl, kp⟩ := sess_keeps h1 h2 h
  obtain ⟨g, hg⟩ := newElement_spec kp.sees.ok hn
  obtain ⟨hpos, hlo, ho4, ho8, hhi, -⟩ := hg o rfl
  have hle := g.ok.le
  have hli := g.ok.lim
  unfold Pool.tagAny
  rw [hn]
  simp only [Out.ok_bind]
  have hlen : (le32 (o : Int) ++ leN 2 (toU 16 id) ++ [1, HEX.code] ++ le32 o ++ le32 o ++ le32 0 ++ le32 0).length = 24 := by
    simp only [List.length_append, leN_length, le32, List.length_cons, List.length_nil]
  unfold Pool.initElem
  rw [Pool.wr_eq (a := o) (by rw [hlen]; omega) _ rfl, Out.ok_bind]
  have hf : fromString flt s HEX (o + 24) (o + 24 + size) = .ub := by
    unfold fromString
    simp only
    rw [if_pos (by unfold aa; omega)]
  rw [hf]

/-- the hypotheses of `C80_hex_false` are met -/
example : ∃ Q, (Pool.empty 0x8000).newElement demoEnv HEX 2 = .ok (Q, some 92) := ⟨_, poolOf_eq (by decide +kernel)⟩

/-! ### the check of a table -/

/-- C80 (false in general): the check of a table of symbols reports a damage for every document in which a symbol of that kind was registered, whatever else was done with it; only
empty tables pass. -/
theorem C80_check_false (E : Env) (maxSize : Nat) (h1 : 0x4000 ≤ maxSize) (h2 : maxSize < 2147483648) (P : Pool) (D : Doc) (h : Sess E maxSize P D) (b : Bool) :
    P.checkTable (P.tab b) = .ok (D.syms b).isEmpty := by
  obtain ⟨els, V, fl, kp⟩ := sess_keeps h1 h2 h
  have T := kp.tabs b
  have hle := kp.sees.ok.le
  have hfs := kp.sees.size
  unfold Pool.checkTable
  cases hl : D.syms b with
  | nil =>
    rw [hl] at T
    rw [if_pos (by rw [T.max]; simp)]
    rfl
  | cons x l =>
    rw [hl] at T
    have hmax := T.max
    simp only [List.length_cons] at hmax
    rw [if_neg (by omega)]
    split
    · rfl
    · next hi =>
      have hi0 : (P.tab b).index ≠ 0 := by intro hc; rw [hc] at hi; exact hi (by decide)
      obtain ⟨i1, i2, i3, i4⟩ := T.index hi0
      obtain ⟨n1, n2, n3, n4⟩ := T.names i1
      have hn : ((P.tab b).maxId + 1).toNat = l.length + 1 := by omega
      rw [hn]
      unfold Pool.checkTableLoop
      unfold encIdx at i4
      have h0 := (Has.append.1 i4).1
      simp only [List.length_cons] at i3
      have hx : P.img.i32 ((P.tab b).index + 4 * (0 : Nat)) = .ok ((P.tab b).names : Int) := by
        refine Img.i32_ok h0 (by show _ ≤ P.fileSize; omega) ?_ _ (by omega)
        have := kp.sees.small
        have hli := kp.sees.ok.lim
        have hmap := kp.sees.ok.map
        unfold isI32 INT_MIN INT_MAX
        omega
      rw [hx, Out.ok_bind, if_neg (by omega), if_neg (by omega), if_pos (by omega)]
      rfl

/-- both cases of `C80_check_false` occur: in a document with two symbols of each kind, and in an empty one -/
example : box5.checkTable (box5.tab true) = .ok false ∧ box5.checkTable (box5.tab false) = .ok false ∧ (Pool.empty 0x8000).checkTable ((Pool.empty 0x8000).tab true) = .ok true := by
  obtain ⟨D, h, -, -, -, -, -, -, s1, s2, -⟩ := box_sess
  refine ⟨?_, ?_, ?_⟩
  · rw [C80_check_false demoEnv 0x8000 (by decide) (by decide) _ _ h, s1]; rfl
  · rw [C80_check_false demoEnv 0x8000 (by decide) (by decide) _ _ h, s2]; rfl
  · exact C80_check_false demoEnv 0x8000 (by decide) (by decide) _ _ Sess.start true

end BX
