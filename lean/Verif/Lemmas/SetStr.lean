import Verif.Lemmas.EditSet
/-
Setting the text of an element.
-/
namespace BX
open XBT Spec

/-- overwriting bytes together with bytes in front of them that stay the same -/
theorem memPut_front {m : Mem} {a : Nat} {as bs : List UInt8} (h : Has m a as) : memPut m a (as ++ bs) = memPut m (a + as.length) bs := by
  funext i
  unfold memPut
  by_cases h1 : a ≤ i ∧ i < a + as.length
  · rw [if_pos (by simp; omega), if_neg (by omega)]
    have := h.get (i := i - a) (by omega)
    rw [show a + (i - a) = i by omega] at this
    rw [this, List.getD_eq_getElem?_getD, List.getElem?_append_left (by omega), List.getElem?_eq_getElem (by omega)]
    rfl
  · by_cases h2 : a + as.length ≤ i ∧ i < a + as.length + bs.length
    · rw [if_pos (by simp; omega), if_pos h2, List.getD_eq_getElem?_getD, List.getD_eq_getElem?_getD, List.getElem?_append_right (by omega)]
      congr 2; omega
    · rw [if_neg (by simp; omega), if_neg h2]

/-- the form of the value of a text -/
theorem isText_form {D : Doc} {e : Nat} (h : D.IsText e) : ∃ l, (∀ x ∈ D.textOf e, x ≠ 0) ∧
    (D.type e = STRING ∧ D.val e = D.textOf e ++ 0 :: l ∧ D.textRoom e = (D.textOf e).length + 1 ∨
      D.type e = BLOB_STRING ∧ D.textRoom e = (D.textOf e).length + 1 + l.length ∧ D.textRoom e + 4 < 2147483648 ∧ D.val e = le32 (D.textRoom e : Nat) ++ (D.textOf e ++ 0 :: l)) := by
  obtain ⟨h1, h2, h3⟩ := h
  obtain ⟨l, hl⟩ := cPrefix_mem h3
  have hn := cPrefix_noNul (D.textBytes e)
  refine ⟨l, hn, ?_⟩
  rcases h1 with h1 | h1
  · left
    refine ⟨h1, ?_, ?_⟩
    · have : D.textBytes e = D.val e := by unfold Doc.textBytes; rw [if_neg (by rw [h1]; decide)]
      rw [this] at hl
      unfold Doc.textOf; rw [this]; exact hl
    · unfold Doc.textRoom; rw [if_neg (by rw [h1]; decide)]
  · right
    have hb : D.textBytes e = (D.val e).drop 4 := by unfold Doc.textBytes; rw [if_pos h1]
    rw [h1] at h2
    obtain ⟨bs, g1, g2⟩ := h2
    have hbs : D.textBytes e = bs := by rw [hb, g1, List.drop_left' (by rfl)]
    have hroom : D.textRoom e = bs.length := by unfold Doc.textRoom; rw [if_pos h1, hbs]
    have hl' : bs = D.textOf e ++ 0 :: l := by rw [← hbs]; exact hl
    refine ⟨h1, ?_, by rw [hroom]; exact g2, by rw [hroom, ← hl']; exact g1⟩
    rw [hroom]
    have := congrArg List.length hl'
    simp only [List.length_append, List.length_cons] at this
    omega

/-- the text and its room as `getData` shows them -/
theorem text_read {P : Pool} {D : Doc} {els V fl} (k : Keeps P D els V fl) {e : Nat} (he : e ∈ els) (h : D.IsText e) :
    ∃ r off, P.getData e = .ok r ∧ r.type = some (D.type e) ∧ r.content = e + 24 + (off : Nat) ∧ r.contentSize = D.textRoom e ∧ P.img.str r.content = .ok (D.textOf e) ∧
      (D.type e = STRING ∧ off = 0 ∨ D.type e = BLOB_STRING ∧ off = 4) := by
  have hE := k.elem e he
  have hsz := k.sees.size
  have hhi := hE.hi
  have hv := hE.val
  obtain ⟨r, g1, g2, g3, g4, g5, g6, g7⟩ := getData_spec hE hsz.1 h.2.1
  obtain ⟨l, hn, hf⟩ := isText_form h
  rcases hf with ⟨f1, f2, f3⟩ | ⟨f1, f2, f3, f4⟩
  · have hval := f2
    rw [f2, show D.textOf e ++ 0 :: l = (D.textOf e ++ [0]) ++ l by simp, Has.append] at hv
    rw [f2] at hhi
    simp only [List.length_append, List.length_cons] at hhi
    refine ⟨r, 0, g1, g2, by rw [g6, f1]; simp [isVarsize], ?_, ?_, Or.inl ⟨f1, rfl⟩⟩
    · rw [g7, g4, f1, f3]
      have hb : D.textBytes e = D.val e := by unfold Doc.textBytes; rw [if_neg (by rw [f1]; decide)]
      simp only [readable, isVarsize]
      unfold Doc.textOf
      rw [hb]
      simp
    · rw [g6, f1]
      exact Img.str_ok (f := P.img) hv.1 hn (by show _ ≤ P.fileSize; omega) _ (by simp [isVarsize])
  · have hval := f4
    rw [f4, show D.textOf e ++ 0 :: l = (D.textOf e ++ [0]) ++ l by simp, Has.append, Has.append] at hv
    rw [f4] at hhi
    simp only [List.length_append, List.length_cons, le32_length] at hhi hv
    refine ⟨r, 4, g1, g2, by rw [g6, f1]; simp [isVarsize], ?_, ?_, Or.inr ⟨f1, rfl⟩⟩
    · rw [g7, g4, f1]
      simp only [readable, isVarsize]
      rw [hval]
      simp only [List.length_append, List.length_cons, le32_length]
      simp; omega
    · rw [g6, f1]
      exact Img.str_ok (f := P.img) hv.2.1 hn (by show _ ≤ P.fileSize; omega) _ (by simp [isVarsize])

/-- the text is overwritten -/
theorem setStr_place {E : Env} {maxSize : Nat} (h1 : 0x4000 ≤ maxSize) (h2 : maxSize < 2147483648) {P Q : Pool} {D : Doc} (h : Sess E maxSize P D) {e : Nat} (he : D.forest.Elem e) (ht : D.IsText e)
    (htag : D.forest.tag e = true) (hr : D.ready true = true) (hs : D.syms true ≠ []) {m : BStr} (hn : ∀ x ∈ m, x ≠ 0) (hroom : m.length + 1 ≤ D.textRoom e) {off : Nat} (ho : D.type e = STRING ∧ off = 0 ∨ D.type e = BLOB_STRING ∧ off = 4)
    (hw : P.wr (e + 24 + (off : Nat)) (m ++ [0]) = .ok Q) :
    ∃ bs, Sess E maxSize Q (D.store e bs) ∧ (D.store e bs).IsText e ∧ (D.store e bs).textOf e = m ∧ readText Q e = .ok (some m) := by
  obtain ⟨els, V, fl, k⟩ := sess_keeps h1 h2 h
  have hee := (k.lists.mem e).1 he
  have hE := k.elem e hee
  have hsz := k.sees.size
  obtain ⟨l, hl, hf⟩ := isText_form ht
  have hcp : ∀ x : List UInt8, (m ++ 0 :: x).takeWhile (· ≠ 0) = m := fun x => by
    rw [List.takeWhile_append_of_pos (by simpa using hn)]; simp
  have key : ∀ bs rest, Sess E maxSize Q (D.store e bs) → (D.store e bs).val e = rest → (D.type e = STRING ∧ rest = m ++ 0 :: (rest.drop (m.length + 1)) ∨ D.type e = BLOB_STRING ∧ ∃ x, rest = le32 ((m ++ 0 :: x).length : Nat) ++ (m ++ 0 :: x) ∧ (m ++ 0 :: x).length + 4 < 2147483648) →
      Sess E maxSize Q (D.store e bs) ∧ (D.store e bs).IsText e ∧ (D.store e bs).textOf e = m ∧ readText Q e = .ok (some m) := by
    intro bs rest hS hval hform
    obtain ⟨els', V', fl', k'⟩ := sess_keeps h1 h2 hS
    have hee' := (k'.lists.mem e).1 he
    have hty : (D.store e bs).type e = D.type e := rfl
    rcases hform with ⟨t1, t2⟩ | ⟨t1, x, t2, t3⟩
    · have hb : (D.store e bs).textBytes e = m ++ 0 :: (rest.drop (m.length + 1)) := by unfold Doc.textBytes; rw [hty, if_neg (by rw [t1]; decide), hval]; exact t2
      refine ⟨hS, ⟨Or.inl t1, ?_, by rw [hb]; simp⟩, by unfold Doc.textOf; rw [hb]; exact hcp _, ?_⟩
      · rw [hty, t1, hval, t2]; show (0 : UInt8) ∈ _; simp
      · exact readText_spec k' hee' hn htag hr hs (Or.inl ⟨t1, by rw [hval]; exact t2⟩)
    · have hb : (D.store e bs).textBytes e = m ++ 0 :: x := by unfold Doc.textBytes; rw [hty, if_pos t1, hval, t2, List.drop_left' (by rfl)]
      refine ⟨hS, ⟨Or.inr t1, ?_, by rw [hb]; simp⟩, by unfold Doc.textOf; rw [hb]; exact hcp _, ?_⟩
      · rw [hty, t1, hval, t2]; exact ⟨_, rfl, t3⟩
      · exact readText_spec k' hee' hn htag hr hs (Or.inr ⟨t1, _, by rw [hval]; exact t2⟩)
  have haa := aa_ge (D.val e).length
  rcases hf with ⟨f1, f2, f3⟩ | ⟨f1, f2, f3, f4⟩
  · have o0 : off = 0 := by
      rcases ho with ho | ho
      · exact ho.2
      · rw [f1] at ho; exact absurd ho.1 (by decide)
    subst o0
    have hlen := congrArg List.length f2
    simp only [List.length_append, List.length_cons] at hlen
    refine ⟨m ++ [0], key _ _ (Sess.stored h he (by simp only [List.length_append, List.length_singleton]; omega) (by rw [← hw]; congr 1)) (if_pos rfl) (Or.inl ⟨f1, ?_⟩)⟩
    rw [List.append_assoc, List.singleton_append]
    congr 2
    have e1 : ∀ x : List UInt8, List.drop (m.length + 1) (m ++ 0 :: x) = x := fun x => by
      rw [show m ++ 0 :: x = (m ++ [0]) ++ x by simp]; exact List.drop_left' (by simp)
    exact (e1 _).symm
  · have o4 : off = 4 := by
      rcases ho with ho | ho
      · rw [f1] at ho; exact absurd ho.1 (by decide)
      · exact ho.2
    subst o4
    have hlen := congrArg List.length f4
    simp only [List.length_append, List.length_cons, le32_length] at hlen
    have hv := hE.val
    rw [f4, Has.append] at hv
    have hwr : P.wr (e + 24) (le32 (D.textRoom e : Nat) ++ (m ++ [0])) = .ok Q := by
      rw [← hw]
      unfold Pool.wr put
      rw [if_neg (show ¬ ((e : Int) + 24 < 0) by omega), if_neg (show ¬ ((e : Int) + 24 + (4 : Nat) < 0) by omega), show ((e : Int) + 24).toNat = e + 24 by omega, show ((e : Int) + 24 + (4 : Nat)).toNat = e + 24 + 4 by omega, memPut_front hv.1]
      simp only [List.length_append, le32_length]
      rw [show e + 24 + (4 + (m.length + [(0 : UInt8)].length)) = e + 24 + 4 + (m.length + [(0 : UInt8)].length) by omega]
    have hdrop : (le32 (D.textRoom e : Nat) ++ (m ++ [0])).length = 4 + (m.length + 1) := by simp
    refine ⟨_, key _ _ (Sess.stored h he (by rw [hdrop]; omega) hwr) (if_pos rfl) (Or.inr ⟨f1, (D.val e).drop (4 + (m.length + 1)), ?_, ?_⟩)⟩
    · rw [hdrop]
      have : (m ++ 0 :: (D.val e).drop (4 + (m.length + 1))).length = D.textRoom e := by
        simp only [List.length_append, List.length_cons, List.length_drop]; omega
      rw [this]; simp
    · simp only [List.length_append, List.length_cons, List.length_drop]; omega

/-- the element is replaced -/
theorem setStrNew_spec {E : Env} {maxSize : Nat} (h1 : 0x4000 ≤ maxSize) (h2 : maxSize < 2147483648) {P Q : Pool} {D : Doc} (h : Sess E maxSize P D) {e p : Nat} (he : e ∈ D.forest.at' (.kids p))
    (hr : D.ready true = true) (hs : D.syms true ≠ []) {m : List UInt8} {r : Bool} (hw : P.setStrNew E e p m = .ok (Q, r)) :
    r = true ∧ ∃ D' n, Sess E maxSize Q D' ∧ D.Swapped D' p e n ∧ D'.type n = newType (.str (some m)) (D.symType true (D.id e)) ∧ (D'.type n = STRING ∨ D'.type n = BLOB_STRING) ∧ readText Q n = .ok (some (m.takeWhile (· ≠ 0))) := by
  obtain ⟨els, V, fl, k⟩ := sess_keeps h1 h2 h
  have hee := (k.lists.mem e).1 ⟨_, he⟩
  have htag := k.lists.kids p e he
  have hid := (k.elem e hee).is16
  unfold Pool.setStrNew at hw
  obtain ⟨fa, hfa, hw⟩ := Out.bind_eq_ok hw
  have hfa' : fa = ((D.forest.at' (.attrs e)).headD 0 : Nat) := by
    have := k.lists.head e hee 20 (Or.inr rfl)
    rw [show P.eAttr e = _ from k.sees.get hee (by unfold IsPtr; decide) _ rfl] at hfa
    cases hfa
    rw [this]; rfl
  subst hfa'
  obtain ⟨P1, hP1, hw⟩ := Out.bind_eq_ok hw
  obtain ⟨N, hN⟩ := sess_loose h
  have s1 := Sess.step h (Step.cut (k := N) ⟨_, he⟩ (hN N (Nat.le_refl _))) hP1
  have at1 : ∀ q, ((D.forest.put (.attrs e) []).put (.loose N) (D.forest.at' (.attrs e))).at' q = if q = .loose N then D.forest.at' (.attrs e) else if q = .attrs e then [] else D.forest.at' q := fun q => rfl
  generalize hF1 : (D.forest.put (.attrs e) []).put (.loose N) (D.forest.at' (.attrs e)) = F1 at s1 at1
  have tag1 : F1.tag = D.forest.tag := by rw [← hF1]; rfl
  have home1 : F1.home p e = .kids p := by unfold Forest.home; rw [tag1, htag]; rfl
  obtain ⟨P2, hP2, hw⟩ := Out.bind_eq_ok hw
  have s2 := Sess.step s1 (Step.remove (p := p) (t := e) (k := N + 1) (by rw [home1]; show e ∈ F1.at' _; rw [at1]; simpa using he) (by show F1.at' _ = _; rw [at1]; simpa using hN (N + 1) (by omega))) hP2
  simp only [home1] at s2
  have at2 : ∀ q, ((F1.put (.kids p) ((F1.at' (.kids p)).erase e)).put (.loose (N + 1)) [e]).at' q =
      if q = .loose (N + 1) then [e] else if q = .kids p then (D.forest.at' (.kids p)).erase e else F1.at' q := fun q => by
    have e1 : F1.at' (.kids p) = D.forest.at' (.kids p) := by rw [at1, if_neg (by simp), if_neg (by simp)]
    rw [put_at, put_at, e1]
  generalize hF2 : (F1.put (.kids p) ((F1.at' (.kids p)).erase e)).put (.loose (N + 1)) [e] = F2 at s2 at2
  have tag2 : F2.tag = D.forest.tag := by rw [← hF2, ← tag1]; rfl
  have elem2 : ∀ x, D.forest.Elem x → F2.Elem x := by
    rintro x ⟨q, hq⟩
    by_cases c1 : q = .kids p
    · subst c1
      by_cases c2 : x = e
      · exact ⟨.loose (N + 1), by rw [at2, if_pos rfl, c2]; simp⟩
      · exact ⟨.kids p, by rw [at2, if_neg (by simp), if_pos rfl]; exact (List.mem_erase_of_ne c2).2 hq⟩
    · by_cases c3 : q = .attrs e
      · subst c3
        exact ⟨.loose N, by rw [at2, if_neg (by simp), if_neg (by simp), at1, if_pos rfl]; exact hq⟩
      · have c4 : q ≠ .loose (N + 1) := by rintro rfl; rw [hN _ (by omega)] at hq; cases hq
        have c5 : q ≠ .loose N := by rintro rfl; rw [hN _ (by omega)] at hq; cases hq
        exact ⟨q, by rw [at2, if_neg c4, if_neg c1, at1, if_neg c5, if_neg c3]; exact hq⟩
  obtain ⟨els2, V2, fl2, k2⟩ := sess_keeps h1 h2 s2
  obtain ⟨id, hid2, hw⟩ := Out.bind_eq_ok hw
  rw [(k2.elem e ((k2.lists.mem e).1 (elem2 e ⟨_, he⟩))).eId k2.sees.size.1] at hid2
  cases hid2
  obtain ⟨⟨P3, on⟩, hP3, hw⟩ := Out.bind_eq_ok hw
  have sp := tagArg_spec h1 h2 s2 hid hr hs hP3
  cases on with
  | none => cases hw
  | some n =>
    obtain ⟨k3, t, v, nn, bs, a1, a2, a3, a4, a5, a6, a7, a8, a9, s3⟩ := sp
    have hnew : ¬ D.forest.Elem n := fun hc => a5 (elem2 n hc)
    have hne : ∀ x, D.forest.Elem x → x ≠ n := fun x hx hc => hnew (hc ▸ hx)
    have hk3 : k3 ≠ N + 1 := by rintro rfl; rw [show F2.at' _ = _ from at2 _, if_pos rfl] at a4; cases a4
    have empty2 : ∀ q, q = .kids n ∨ q = .attrs n → F2.at' q = [] := by
      rintro q hq
      cases hc : F2.at' q with
      | nil => rfl
      | cons a l =>
        have : n ∈ els2 := by
          rcases hq with rfl | rfl
          · exact k2.lists.own n 16 (by show F2.at' _ ≠ []; rw [show lst 16 n = .kids n from rfl, hc]; simp)
          · exact k2.lists.own n 20 (by show F2.at' _ ≠ []; rw [show lst 20 n = .attrs n from rfl, hc]; simp)
        exact absurd ((k2.lists.mem n).2 this) a5
    obtain ⟨P4, hP4, hw⟩ := Out.bind_eq_ok hw
    obtain ⟨P5, hP5, hw⟩ := Out.bind_eq_ok hw
    obtain ⟨rfl, rfl⟩ : P5 = Q ∧ true = r := by cases hw; exact ⟨rfl, rfl⟩
    refine ⟨rfl, ?_⟩
    have hp : D.forest.Elem p := (k.lists.mem p).2 (k.lists.own p 16 (by show D.forest.at' (.kids p) ≠ []; intro h0; rw [h0] at he; cases he))
    have hl3 : (({ D with forest := F2 } : Doc).plus k3 n true (D.id e) t v).forest.at' (.loose k3) = [n] := if_pos rfl
    have s4 := Sess.step s3 (Step.add (p := p) (t := n) (k := k3) (plus_elem a4 (elem2 p hp)) (by rw [hl3]; simp)) hP4
    have tag3 : (({ D with forest := F2 } : Doc).plus k3 n true (D.id e) t v).forest.tag n = true := if_pos rfl
    have home3 : (({ D with forest := F2 } : Doc).plus k3 n true (D.id e) t v).forest.home p n = .kids p := by unfold Forest.home; rw [tag3]; rfl
    simp only [home3, hl3, show fromElem n [n] = [n] by simp [fromElem]] at s4
    generalize hD3 : ({ D with forest := F2 } : Doc).plus k3 n true (D.id e) t v = D3 at s3 s4
    have at3 : ∀ q, D3.forest.at' q = if q = .loose k3 then [n] else F2.at' q := fun q => by rw [← hD3]; rfl
    have at4 : ∀ q, ((D3.forest.put (.kids p) (D3.forest.at' (.kids p) ++ [n])).put (.loose k3) []).at' q = if q = .loose k3 then [] else if q = .kids p then (D.forest.at' (.kids p)).erase e ++ [n] else F2.at' q := fun q => by
      have e1 : D3.forest.at' (.kids p) = (D.forest.at' (.kids p)).erase e := by rw [at3, if_neg (by simp), at2, if_neg (by simp), if_pos rfl]
      rw [put_at, put_at, e1]
      by_cases c1 : q = .loose k3
      · rw [if_pos c1, if_pos c1]
      · rw [if_neg c1, if_neg c1, at3, if_neg c1]
    generalize hF4 : (D3.forest.put (.kids p) (D3.forest.at' (.kids p) ++ [n])).put (.loose k3) [] = F4 at s4 at4
    have tag4 : F4.tag = D3.forest.tag := by rw [← hF4]; rfl
    have hN4 : F4.at' (.loose N) = D.forest.at' (.attrs e) := by
      rw [at4]
      by_cases c1 : (Place.loose N) = .loose k3
      · rw [if_pos c1]
        have := a4
        rw [show ({ D with forest := F2 } : Doc).forest.at' (.loose k3) = F2.at' (.loose k3) from rfl, ← c1, at2, if_neg (by simp), if_neg (by simp), at1, if_pos rfl] at this
        exact this.symm
      · rw [if_neg c1, if_neg (by simp), at2, if_neg (by simp), if_neg (by simp), at1, if_pos rfl]
    have elem4 : F4.Elem n := ⟨.kids p, by rw [at4, if_neg (by simp), if_pos rfl]; simp⟩
    have tagD3 : ∀ x, x ≠ n → D3.forest.tag x = D.forest.tag x := fun x hx => by rw [← hD3]; show (if x = n then _ else F2.tag x) = _; rw [if_neg hx, tag2]
    have s5 := Sess.step s4 (Step.tie (e := n) (k := N) elem4 (by rw [at4, if_neg (by simp), if_neg (by simp)]; exact empty2 _ (Or.inr rfl))
      (by intro a ha
          have ha' : a ∈ D.forest.at' (.attrs e) := hN4 ▸ ha
          show F4.tag a = false
          rw [tag4, tagD3 a (hne a ⟨_, ha'⟩)]; exact k.lists.attrs e a ha'))
      (by show P4.wr _ _ = _; rw [show ({ D3 with forest := F4 } : Doc).forest.at' (.loose N) = _ from hN4]; exact hP5)
    simp only [hN4] at s5
    have at5 : ∀ q, ((F4.put (.attrs n) (D.forest.at' (.attrs e))).put (.loose N) []).at' q = if q = .loose N then [] else if q = .attrs n then D.forest.at' (.attrs e) else F4.at' q := fun q => rfl
    generalize hF5 : (F4.put (.attrs n) (D.forest.at' (.attrs e))).put (.loose N) [] = F5 at s5 at5
    have tag5 : F5.tag = D3.forest.tag := by rw [← hF5, ← tag4]; rfl
    have hidn : D3.id n = D.id e ∧ D3.type n = t ∧ D3.val n = v := by rw [← hD3]; exact ⟨if_pos rfl, if_pos rfl, if_pos rfl⟩
    have hold : ∀ x, x ≠ n → D3.id x = D.id x ∧ D3.type x = D.type x ∧ D3.val x = D.val x := fun x hx => by rw [← hD3]; exact ⟨if_neg hx, if_neg hx, if_neg hx⟩
    have tag5n : F5.tag n = true := by rw [tag5, ← hD3]; exact if_pos rfl
    have hrest : D3.root = D.root ∧ D3.syms = D.syms ∧ D3.ready = D.ready := by rw [← hD3]; exact ⟨rfl, rfl, rfl⟩
    have elem5 : ∀ x, F2.Elem x → F5.Elem x := by
      rintro x ⟨q, hq⟩
      by_cases c1 : q = .loose N
      · subst c1
        refine ⟨.attrs n, ?_⟩
        rw [at5, if_neg (by simp), if_pos rfl]
        rwa [at2, if_neg (by simp), if_neg (by simp), at1, if_pos rfl] at hq
      · by_cases c2 : q = .attrs n
        · rw [empty2 q (Or.inr c2)] at hq; cases hq
        · by_cases c3 : q = .loose k3
          · subst c3; rw [show F2.at' (.loose k3) = [] from a4] at hq; cases hq
          · refine ⟨q, ?_⟩
            rw [at5, if_neg c1, if_neg c2, at4, if_neg c3]
            by_cases c4 : q = .kids p
            · rw [if_pos c4]; subst c4
              rw [at2, if_neg (by simp), if_pos rfl] at hq
              exact List.mem_append_left _ hq
            · rw [if_neg c4]; exact hq
    have hty : t = STRING ∨ t = BLOB_STRING := by
      simp only [TagArg.typeFor] at a1
      split at a1
      · cases a1; exact Or.inl rfl
      · split at a1
        · cases a1; exact Or.inr rfl
        · cases a1
    refine ⟨{ D3 with forest := F5 }, n, s5, ⟨hnew, ?_, ?_, ?_, ⟨⟨N + 1, ?_⟩, ?_⟩, tag5n, hidn.1, ⟨?_, ?_⟩, ?_, hrest.1, hrest.2.1, hrest.2.2⟩, ?_, by show D3.type n = _ ∨ D3.type n = _; rw [hidn.2.1]; exact hty, ?_⟩
    · show F5.at' _ = _
      rw [at5, if_neg (by simp), if_neg (by simp), at4, if_neg (by simp), if_pos rfl]
    · show F5.at' _ = _
      rw [at5, if_neg (by simp), if_pos rfl]
    · show F5.at' _ = _
      rw [at5, if_neg (by simp), if_neg (by simp), at4, if_neg (by simp), if_neg (by simp; exact fun hc => hnew (hc ▸ hp))]
      exact empty2 _ (Or.inl rfl)
    · show F5.at' _ = _
      rw [at5, if_neg (by simp), if_neg (by simp), at4, if_neg (by simp; omega), if_neg (by simp), at2, if_pos rfl]
    · show F5.at' _ = _
      rw [at5, if_neg (by simp), if_neg (by simp; exact hne e ⟨_, he⟩), at4, if_neg (by simp), if_neg (by simp), at2, if_neg (by simp), if_neg (by simp), at1, if_neg (by simp), if_pos rfl]
    · intro q hq hqp
      show F5.at' _ = _
      rw [at5, if_neg (by simp), if_neg (by simp), at4, if_neg (by simp), if_neg (by simp; exact hqp), at2, if_neg (by simp), if_neg (by simp; exact hqp), at1, if_neg (by simp), if_neg (by simp)]
    · intro q hq hqe
      show F5.at' _ = _
      rw [at5, if_neg (by simp), if_neg (by simp; exact hne q hq), at4, if_neg (by simp), if_neg (by simp), at2, if_neg (by simp), if_neg (by simp), at1, if_neg (by simp), if_neg (by simp; exact hqe)]
    · intro x hx
      obtain ⟨o1, o2, o3⟩ := hold x (hne x hx)
      refine ⟨elem5 x (elem2 x hx), ?_, o1, o2, o3⟩
      show F5.tag x = _
      rw [tag5, tagD3 x (hne x hx)]
    · show D3.type n = _
      rw [hidn.2.1]
      exact newType_spec a1 a2
    · obtain ⟨els5, V5, fl5, k5⟩ := sess_keeps h1 h2 s5
      have hn5 : n ∈ els5 := (k5.lists.mem n).1 ⟨.kids p, by show n ∈ F5.at' _; rw [at5, if_neg (by simp), if_neg (by simp), at4, if_neg (by simp), if_pos rfl]; simp⟩
      have hbs := a9 m rfl
      refine readText_spec (s := m.takeWhile (· ≠ 0)) (l := List.replicate nn 0) k5 hn5 (cPrefix_noNul m) tag5n (by show D3.ready _ = _; rw [hrest.2.2]; exact hr) (by show D3.syms _ ≠ _; rw [hrest.2.1]; exact hs) ?_
      show D3.type n = _ ∧ D3.val n = _ ∨ D3.type n = _ ∧ ∃ z, D3.val n = _
      rw [hidn.2.1, hidn.2.2, a6, hbs]
      rcases hty with rfl | rfl
      · left; simp [sizeField, isVarsize]
      · right; refine ⟨rfl, size2 BLOB_STRING (TagArg.str (some m)).size - 4, ?_⟩; simp [sizeField, isVarsize]

end BX
