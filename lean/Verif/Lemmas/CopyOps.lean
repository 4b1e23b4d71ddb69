import Verif.Lemmas.Copy
import Verif.Props.Attrs
/-
The calls that copying uses: they succeed when there is room.
-/
namespace BX
open XBT Spec

/-- what a call leaves as it is, and how much of the file it uses at most -/
structure Used (P Q : Pool) (n : Nat) : Prop where
  alloc : Q.alloc ≤ P.alloc + n
  limit : P.limit ≤ Q.limit
  map : Q.mmapSize = P.mmapSize

theorem Used.trans {P Q R : Pool} {a b : Nat} (h : Used P Q a) (h' : Used Q R b) : Used P R (a + b) :=
  ⟨by have := h.alloc; have := h'.alloc; omega, Nat.le_trans h.limit h'.limit, h'.map.trans h.map⟩
theorem Used.more {P Q : Pool} {a b : Nat} (h : Used P Q a) (hab : a ≤ b) : Used P Q b := ⟨by have := h.alloc; omega, h.limit, h.map⟩

theorem makeData_ok {P : Pool} (hP : PoolOk P) (hsm : P.mmapSize < 2147483648) {id : Int} {t : XBT} {fl : UInt8} {bs : List UInt8} (room : P.alloc + bs.length + 40 ≤ P.limit) :
    ∃ Q o, P.makeData id t fl bs = .ok (Q, some o) ∧ Used P Q (bs.length + 40) := by
  have hl := hP.lim
  have hm := hP.map
  have hal := hP.al
  have hg8 := aa8_ge P.alloc
  have ha8 : aa8 P.alloc ≤ P.alloc + 4 := by unfold aa8; omega
  have hn8 := aa8_lt (24 + bs.length)
  have hgn := aa8_ge (24 + bs.length)
  have hmax : INT_MAX = 2147483647 := rfl
  unfold Pool.makeData
  rw [show (24 + (bs.length : Int)) = ((24 + bs.length : Nat) : Int) by push_cast; rfl, allocate8_eq (by omega) (by omega) (by omega) (by omega) (by omega) (by omega)]
  simp only [Out.ok_bind]
  unfold Pool.initElem
  rw [Pool.wr_eq (a := aa8 P.alloc) (by simp [leN_length]; omega) _ (by omega), Out.ok_bind, Pool.wr_eq (a := aa8 P.alloc + 24) (by simp only; omega) _ (by omega)]
  exact ⟨_, _, rfl, by simp only; omega, Nat.le_refl _, rfl⟩

theorem typeOf_spec {P : Pool} {D : Doc} {els V fl} (k : Keeps P D els V fl) {b : Bool} {id : Int} {t : XBT} (h : D.typeOf b id = some t) : P.symType b id = .ok (some t) := by
  unfold Doc.typeOf at h
  split at h
  · next hc => cases h; exact symType_spec k hc.1 hc.2 id
  · cases h

/-- an element is new -/
theorem fresh_elem {P : Pool} {D : Doc} {els V fl} (k : Keeps P D els V fl) {o : Nat} (h : P.alloc ≤ o) : ¬ D.forest.Elem o := by
  intro he
  have := (k.sees.range o ((k.lists.mem o).1 he)).2
  omega

/-- adding succeeds and uses no memory -/
theorem add_used {P : Pool} {D : Doc} {els V fl} (k : Keeps P D els V fl) {p t j : Nat} (hp : D.forest.Elem p) (ht : t ∈ D.forest.at' (.loose j)) : ∃ Q, P.add p (some (t : Int)) = .ok Q ∧ Used P Q 0 := by
  obtain ⟨Q, -, -, hQ, -, ho, -⟩ := step_spec k.sees k.lists (Step.add (F := D.forest) hp ht)
  refine ⟨Q, hQ, ?_, ?_, ?_⟩ <;> rw [ho.rest] <;> exact Nat.le_refl _

theorem attrBytes_ok {E : Env} {maxSize : Nat} (h1 : 0x4000 ≤ maxSize) (h2 : maxSize < 2147483648) {P : Pool} {D : Doc} (h : Sess E maxSize P D) {p : Nat} (hp : D.forest.Elem p) {id : Int} (hid : Is16 id)
    {t : XBT} {bs : List UInt8} (room : P.alloc + bs.length + 40 ≤ P.limit) :
    ∃ Q o, P.attrBytes p id t bs = .ok (Q, true) ∧ Sess E maxSize Q (D.withAttr p o id t bs) ∧ ¬ D.forest.Elem o ∧ Used P Q (bs.length + 40) := by
  obtain ⟨els, V, fl, k⟩ := sess_keeps h1 h2 h
  obtain ⟨Q, o, hm, hu⟩ := makeData_ok (id := id) (t := t) (fl := 0) k.sees.ok k.sees.small room
  obtain ⟨-, hsp⟩ := makeData_spec k.sees.ok hm
  obtain ⟨N, hN⟩ := sess_loose h
  have hk := hN N (Nat.le_refl _)
  have hs := Sess.copied (b := false) (k := N) h hid hm hk
  obtain ⟨els', V', fl', k'⟩ := sess_keeps h1 h2 hs
  have hl : (D.plus N o false id t bs).forest.at' (.loose N) = [o] := if_pos rfl
  have hp' : (D.plus N o false id t bs).forest.Elem p := by
    obtain ⟨q, hq⟩ := hp
    refine ⟨q, ?_⟩
    have : (D.plus N o false id t bs).forest.at' q = D.forest.at' q := by
      refine if_neg ?_
      rintro rfl
      rw [hk] at hq; cases hq
    rw [this]; exact hq
  obtain ⟨R, hR, hu'⟩ := add_used k' hp' (t := o) (j := N) (by rw [hl]; simp)
  refine ⟨R, o, ?_, plus_add hs hk hp hR, fresh_elem k (hsp o rfl).1, hu.trans hu'⟩
  unfold Pool.attrBytes
  rw [hm]
  simp only [Out.ok_bind]
  rw [hR]
  rfl

theorem i16_is16 {f : Img} {a v : Int} (h : f.i16 a = .ok v) : Is16 v := by
  unfold Img.i16 at h
  obtain ⟨l, hl, h⟩ := Out.bind_eq_ok h
  cases h
  have hlen := (rd_length hl).1
  have := rdN_lt l
  rw [hlen] at this
  unfold Is16 ofU
  have : rdN l < 65536 := by simpa using this
  split <;> omega

theorem attrData_ok {E : Env} {maxSize : Nat} (h1 : 0x4000 ≤ maxSize) (h2 : maxSize < 2147483648) {flt : CStr → List UInt8} (hflt : ∀ s, (flt s).length = 4) {P : Pool} {D : Doc} (h : Sess E maxSize P D)
    {p : Nat} (hp : D.forest.Elem p) {id : Int} (hid : Is16 id) {d : Data} (hd : FromFile d) {a' : Int × Data} (ht : D.takesAttr flt (id, d) = some a') (room : P.alloc + d.bytes.length + 80 ≤ P.limit) :
    ∃ Q o, P.attrData flt p id d.type d.bytes = .ok (Q, true) ∧ Sess E maxSize Q (D.withAttr p o id a'.2.type a'.2.bytes) ∧ ¬ D.forest.Elem o ∧ Used P Q (d.bytes.length + 80) ∧
      a'.1 = id ∧ DataGood a'.2 := by
  obtain ⟨els, V, fl, k⟩ := sess_keeps h1 h2 h
  have hlim := k.sees.ok.lim
  have hmap := k.sees.ok.map
  have hsm := k.sees.small
  have hhd := k.sees.ok.head
  unfold Doc.takesAttr at ht
  simp only at ht
  cases hty : D.typeOf false id with
  | none => rw [hty] at ht; cases ht
  | some t =>
    rw [hty] at ht
    simp only [Option.bind_some, Option.map_eq_some_iff] at ht
    obtain ⟨d', hd', rfl⟩ := ht
    have hph : poolHeader = 92 := rfl
    obtain ⟨g1, g2, g3, g4⟩ := asType_spec hflt hd hd' (by omega)
    have hst := typeOf_spec k hty
    obtain ⟨Q, o, q1, q2, q3, q4⟩ := attrBytes_ok h1 h2 h hp hid (t := t) (bs := d'.bytes) (by omega)
    refine ⟨Q, o, ?_, by rw [g2]; exact q2, q3, q4.more (by omega), rfl, g1⟩
    unfold Pool.attrData
    rw [hst, Out.ok_bind]
    rcases g4 with ⟨e1, rfl⟩ | ⟨e1, e2, e3, w, e4, e5⟩
    · subst e1
      rw [if_neg (fun hc => hc.2 (by rw [hc.1])), if_pos rfl]
      exact q1
    · rw [if_pos ⟨e2, fun hc => e1 (by injection hc with hc; rw [e2, hc])⟩]
      simp only
      rw [if_neg e3, e4]
      simp only
      rw [e5]
      exact q1

/-! ### what was copied -/

/-- these are new elements with these identifications, types and values -/
def AttrsAre (D0 D : Doc) : List Nat → List (Int × Data) → Prop
  | [], [] => True
  | a :: l, x :: as => ¬ D0.forest.Elem a ∧ D.forest.Elem a ∧ D.id a = x.1 ∧ D.type a = x.2.type ∧ D.val a = x.2.bytes ∧ DataGood x.2 ∧ AttrsAre D0 D l as
  | _, _ => False

mutual
/-- the element shows this tree, and all below it is new -/
def HasTree (D0 D : Doc) (e : Nat) : CTree → Prop
  | .mk id _ as ks => D.id e = id ∧ AttrsAre D0 D (D.forest.at' (.attrs e)) as ∧ HasKids D0 D (D.forest.at' (.kids e)) ks
def HasKids (D0 D : Doc) : List Nat → List CTree → Prop
  | [], [] => True
  | e :: es, k :: ks => ¬ D0.forest.Elem e ∧ D.forest.Elem e ∧ D.type e = k.value.type ∧ D.val e = k.value.bytes ∧ DataGood k.value ∧ HasTree D0 D e k ∧ HasKids D0 D es ks
  | _, _ => False
end

/-- `D'` has all that `D` has, but the lists of `p` may differ -/
structure Below (p : Nat) (D D' : Doc) : Prop where
  lists : ∀ q, D.forest.Elem q → q ≠ p → D'.forest.at' (.kids q) = D.forest.at' (.kids q) ∧ D'.forest.at' (.attrs q) = D.forest.at' (.attrs q)
  elem : ∀ e, D.forest.Elem e → D'.forest.Elem e ∧ D'.id e = D.id e ∧ D'.type e = D.type e ∧ D'.val e = D.val e

theorem attrsAre_mono {D0 D0' D D' : Doc} {p : Nat} (h0 : ∀ e, D0'.forest.Elem e → D0.forest.Elem e) (h : Below p D D') :
    ∀ (l : List Nat) (as : List (Int × Data)), AttrsAre D0 D l as → AttrsAre D0' D' l as
  | [], [], _ => trivial
  | [], _ :: _, hh => hh.elim
  | _ :: _, [], hh => hh.elim
  | a :: l, x :: as, ⟨a1, a2, a3, a4, a5, a6, a7⟩ => by
    obtain ⟨b1, b2, b3, b4⟩ := h.elem a a2
    exact ⟨fun hc => a1 (h0 a hc), b1, by rw [b2]; exact a3, by rw [b3]; exact a4, by rw [b4]; exact a5, a6, attrsAre_mono h0 h l as a7⟩

mutual
theorem hasTree_mono {D0 D0' D D' : Doc} {p : Nat} (h0 : ∀ e, D0'.forest.Elem e → D0.forest.Elem e) (h : Below p D D') (hp : D0.forest.Elem p) :
    ∀ (t : CTree) (e : Nat), D.forest.Elem e → e ≠ p → HasTree D0 D e t → HasTree D0' D' e t
  | .mk id v as ks, e, he, hne, ⟨h1, h2, h3⟩ => by
    obtain ⟨l1, l2⟩ := h.lists e he hne
    obtain ⟨-, b2, -⟩ := h.elem e he
    unfold HasTree
    refine ⟨by rw [b2]; exact h1, ?_, ?_⟩
    · rw [l2]; exact attrsAre_mono h0 h _ _ h2
    · rw [l1]; exact hasKids_mono h0 h hp ks _ h3
theorem hasKids_mono {D0 D0' D D' : Doc} {p : Nat} (h0 : ∀ e, D0'.forest.Elem e → D0.forest.Elem e) (h : Below p D D') (hp : D0.forest.Elem p) :
    ∀ (ks : List CTree) (l : List Nat), HasKids D0 D l ks → HasKids D0' D' l ks
  | [], [], _ => by unfold HasKids; trivial
  | _ :: _, [], hh => by unfold HasKids at hh; exact hh.elim
  | [], _ :: _, hh => by unfold HasKids at hh; exact hh.elim
  | k :: ks, e :: es, hh => by
    unfold HasKids at hh ⊢
    obtain ⟨a1, a2, a3, a4, a5, a6, a7⟩ := hh
    obtain ⟨b1, b2, b3, b4⟩ := h.elem e a2
    exact ⟨fun hc => a1 (h0 e hc), b1, by rw [b3]; exact a3, by rw [b4]; exact a4, a5, hasTree_mono h0 h hp k e a2 (fun hc => a1 (hc ▸ hp)) a6, hasKids_mono h0 h hp ks es a7⟩
end

theorem hasKids_append {D0 D : Doc} : ∀ (l m : List Nat) (ks js : List CTree), HasKids D0 D l ks → HasKids D0 D m js → HasKids D0 D (l ++ m) (ks ++ js)
  | [], m, [], js, _, h => h
  | [], _, _ :: _, _, hh, _ => by unfold HasKids at hh; exact hh.elim
  | _ :: _, _, [], _, hh, _ => by unfold HasKids at hh; exact hh.elim
  | e :: es, m, k :: ks, js, hh, h => by
    simp only [List.cons_append]
    unfold HasKids at hh ⊢
    obtain ⟨a1, a2, a3, a4, a5, a6, a7⟩ := hh
    exact ⟨a1, a2, a3, a4, a5, a6, hasKids_append es m ks js a7 h⟩

theorem Spec.GrewBelow.below {p : Nat} {D D' : Doc} (h : GrewBelow p D D') : Below p D D' := ⟨h.kids, fun e he => by obtain ⟨a, -, b⟩ := h.elem e he; exact ⟨a, b⟩⟩

theorem grew_refl (p : Nat) (D : Doc) : GrewBelow p D D := ⟨fun _ _ _ => ⟨rfl, rfl⟩, fun _ => rfl, fun _ he => ⟨he, rfl, rfl, rfl, rfl⟩, rfl, rfl, rfl⟩

theorem grew_trans {p : Nat} {D D' D'' : Doc} (h : GrewBelow p D D') (h' : GrewBelow p D' D'') : GrewBelow p D D'' := by
  refine ⟨fun q hq hne => ?_, fun k => (h'.loose k).trans (h.loose k), fun e he => ?_, h'.root.trans h.root, h'.syms.trans h.syms, h'.ready.trans h.ready⟩
  · obtain ⟨a, b⟩ := h.kids q hq hne
    obtain ⟨c, d⟩ := h'.kids q (h.elem q hq).1 hne
    exact ⟨c.trans a, d.trans b⟩
  · obtain ⟨a, b1, b2, b3, b4⟩ := h.elem e he
    obtain ⟨c, d1, d2, d3, d4⟩ := h'.elem e a
    exact ⟨c, d1.trans b1, d2.trans b2, d3.trans b3, d4.trans b4⟩

/-! ### symbols stay -/

theorem typeOf_congr {D D' : Doc} (hs : D'.syms = D.syms) (hr : D'.ready = D.ready) (b : Bool) (id : Int) : D'.typeOf b id = D.typeOf b id := by
  unfold Doc.typeOf Doc.symType; rw [hs, hr]

theorem takesAttrs_congr {flt : CStr → List UInt8} {D D' : Doc} (hs : D'.syms = D.syms) (hr : D'.ready = D.ready) : ∀ as, D'.takesAttrs flt as = D.takesAttrs flt as
  | [] => rfl
  | a :: as => by
    unfold Doc.takesAttrs
    rw [takesAttrs_congr hs hr as]
    unfold Doc.takesAttr
    rw [typeOf_congr hs hr]

mutual
theorem takes_congr {flt : CStr → List UInt8} {D D' : Doc} (hs : D'.syms = D.syms) (hr : D'.ready = D.ready) : ∀ t, D'.takes flt t = D.takes flt t
  | .mk id v as ks => by
    unfold Doc.takes
    rw [takesAttrs_congr hs hr, takesKids_congr hs hr ks]
theorem takesKids_congr {flt : CStr → List UInt8} {D D' : Doc} (hs : D'.syms = D.syms) (hr : D'.ready = D.ready) : ∀ ks, D'.takesKids flt ks = D.takesKids flt ks
  | [] => by unfold Doc.takesKids; rfl
  | k :: ks => by
    unfold Doc.takesKids
    rw [takesKids_congr hs hr ks, takes_congr hs hr k]
    unfold Doc.takesValue
    rw [typeOf_congr hs hr]
end

/-! ### attributes -/

theorem withAttr_at (D : Doc) (p o : Nat) (id : Int) (t : XBT) (v : List UInt8) (q : Place) :
    (D.withAttr p o id t v).forest.at' q = if q = .attrs p then D.forest.at' q ++ [o] else D.forest.at' q := rfl

theorem withAttr_grew {D : Doc} {p o : Nat} {id : Int} {t : XBT} {v : List UInt8} (ho : ¬ D.forest.Elem o) : GrewBelow p D (D.withAttr p o id t v) := by
  refine ⟨fun q _ hne => ⟨by rw [withAttr_at, if_neg (by simp)], by rw [withAttr_at, if_neg (by simp [hne])]⟩, fun k => by rw [withAttr_at, if_neg (by simp)], fun e he => ⟨?_, ?_⟩, rfl, rfl, rfl⟩
  · obtain ⟨q, hq⟩ := he
    refine ⟨q, ?_⟩
    show e ∈ if q = .attrs p then D.forest.at' q ++ [o] else D.forest.at' q
    split
    · simp [hq]
    · exact hq
  · have hne : e ≠ o := fun hc => ho (hc ▸ he)
    exact ⟨if_neg hne, if_neg hne, if_neg hne, if_neg hne⟩

theorem copyAttrs_ok {E : Env} {maxSize : Nat} (h1 : 0x4000 ≤ maxSize) (h2 : maxSize < 2147483648) {flt : CStr → List UInt8} (hflt : ∀ s, (flt s).length = 4) {f : Img} (hf : f.size < 2147483648) {x : Int} {p : Nat} :
    ∀ (as as' : List (Int × Data)) (i : Nat) (P : Pool) (D : Doc), Sess E maxSize P D → D.forest.Elem p → D.takesAttrs flt as = some as' →
      (∀ j (h : j < as.length), ∃ a, f.getParamByIndex x ((i + j : Nat) : Int) = .ok (some a) ∧ f.pName a = .ok as[j].1 ∧ f.pGetData x a = .ok as[j].2) →
      P.alloc + attrsRoom as ≤ P.limit →
      ∃ Q D' l, P.copyAttrs flt f p x as.length i = .ok (Q, true) ∧ Sess E maxSize Q D' ∧ GrewBelow p D D' ∧ D'.forest.at' (.kids p) = D.forest.at' (.kids p) ∧
        D'.forest.at' (.attrs p) = D.forest.at' (.attrs p) ++ l ∧ AttrsAre D D' l as' ∧ Used P Q (attrsRoom as)
  | [], as', i, P, D, hs, hp, ht, _, _ => by
    cases ht
    exact ⟨P, D, [], rfl, hs, grew_refl p D, rfl, (List.append_nil _).symm, trivial, Nat.le_add_right _ _, Nat.le_refl _, rfl⟩
  | a :: as, as', i, P, D, hs, hp, ht, hsh, room => by
    unfold Doc.takesAttrs at ht
    simp only [Option.bind_eq_some_iff, Option.map_eq_some_iff] at ht
    obtain ⟨a', ha', as'', has, rfl⟩ := ht
    obtain ⟨at1, g1, g2, g3⟩ := hsh 0 (by simp)
    simp only [List.getElem_cons_zero, Nat.add_zero] at g1 g2 g3
    unfold attrsRoom at room
    obtain ⟨Q1, o, q1, q2, q3, q4, q5, q6⟩ := attrData_ok h1 h2 hflt hs hp (id := a.1) (d := a.2) (i16_is16 g2) (pGetData_from hf g3) ha' (by omega)
    have hg := withAttr_grew (p := p) (id := a.1) (t := a'.2.type) (v := a'.2.bytes) q3
    have hal := q4.alloc
    have hli := q4.limit
    obtain ⟨Q, D', l, r1, r2, r3, r4, r5, r6, r7⟩ := copyAttrs_ok h1 h2 hflt hf as as'' (i + 1) Q1 _ q2 (hg.elem p hp).1 (by rw [takesAttrs_congr hg.syms hg.ready]; exact has)
      (fun j hj => by
        obtain ⟨b, b1, b2, b3⟩ := hsh (j + 1) (by simp; omega)
        refine ⟨b, ?_, by simpa using b2, by simpa using b3⟩
        rw [show i + 1 + j = i + (j + 1) by omega]; exact b1)
      (by omega)
    have hoE : (D.withAttr p o a.1 a'.2.type a'.2.bytes).forest.Elem o := ⟨.attrs p, by
      show o ∈ if _ then _ else _
      rw [if_pos rfl]; simp⟩
    obtain ⟨e1, -, e2, e3, e4⟩ := r3.elem o hoE
    refine ⟨Q, D', o :: l, ?_, r2, grew_trans hg r3, ?_, ?_, ?_, ?_⟩
    · show Pool.copyAttrs flt f p x (as.length + 1) i P = _
      unfold Pool.copyAttrs
      rw [g1]
      simp only [Out.ok_bind]
      unfold Pool.attrCopy
      rw [g3, g2]
      simp only [Out.ok_bind]
      rw [q1]
      simp only [Out.ok_bind, if_true]
      rw [show (i : Int) + 1 = ((i + 1 : Nat) : Int) by push_cast; rfl]
      exact r1
    · rw [r4, withAttr_at, if_neg (by simp)]
    · rw [r5, show (D.withAttr p o a.1 a'.2.type a'.2.bytes).forest.at' (.attrs p) = D.forest.at' (.attrs p) ++ [o] from if_pos rfl]; simp
    · refine ⟨q3, e1, ?_, ?_, ?_, q6, ?_⟩
      · rw [e2, q5]; exact if_pos rfl
      · rw [e3]; exact if_pos rfl
      · rw [e4]; exact if_pos rfl
      · exact attrsAre_mono (p := p) (D := D') (fun e he => (hg.elem e he).1) ⟨fun _ _ _ => ⟨rfl, rfl⟩, fun _ he => ⟨he, rfl, rfl, rfl⟩⟩ _ _ r6
    · unfold attrsRoom; exact (q4.trans r7).more (by omega)

end BX
