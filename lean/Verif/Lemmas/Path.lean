import Verif.Lemmas.Keys
/-
Copying keys and copying along a path of items.
-/
namespace BX
open XBT Spec

/-! ### what is stored -/

theorem keysOf_pos {isKey : Int → Bool} {a : Int × Data} {as : List (Int × Data)} (h : isKey a.1 = true) : keysOf isKey (a :: as) = a :: keysOf isKey as := by
  unfold keysOf; rw [List.filter_cons, h]; rfl
theorem keysOf_neg {isKey : Int → Bool} {a : Int × Data} {as : List (Int × Data)} (h : isKey a.1 = false) : keysOf isKey (a :: as) = keysOf isKey as := by
  unfold keysOf; rw [List.filter_cons, h]; rfl

theorem attrsRoom_keys (isKey : Int → Bool) : ∀ as, attrsRoom (keysOf isKey as) ≤ attrsRoom as
  | [] => Nat.le_refl _
  | a :: as => by
    have ih := attrsRoom_keys isKey as
    cases h : isKey a.1 with
    | true => rw [keysOf_pos h]; unfold attrsRoom; omega
    | false => rw [keysOf_neg h, show attrsRoom (a :: as) = a.2.bytes.length + 80 + attrsRoom as from rfl]; omega

theorem takesAttrs_cons {flt : CStr → List UInt8} {D : Doc} {a : Int × Data} {as as' : List (Int × Data)} (h : D.takesAttrs flt (a :: as) = some as') :
    ∃ t d bs, D.typeOf false a.1 = some t ∧ asType flt t a.2 = some d ∧ D.takesAttrs flt as = some bs ∧ as' = (a.1, d) :: bs := by
  unfold Doc.takesAttrs at h
  simp only [Option.bind_eq_some_iff, Option.map_eq_some_iff] at h
  obtain ⟨a', ha', bs, has, rfl⟩ := h
  unfold Doc.takesAttr at ha'
  simp only [Option.bind_eq_some_iff, Option.map_eq_some_iff] at ha'
  obtain ⟨t, h1, d, h2, rfl⟩ := ha'
  exact ⟨t, d, bs, h1, h2, has, rfl⟩

theorem takesAttrs_keys {flt : CStr → List UInt8} {D : Doc} (isKey : Int → Bool) : ∀ (as as' : List (Int × Data)), D.takesAttrs flt as = some as' → D.takesAttrs flt (keysOf isKey as) = some (keysOf isKey as')
  | [], as', h => by cases h; rfl
  | a :: as, as', h => by
    obtain ⟨t, d, bs, h1, h2, h3, rfl⟩ := takesAttrs_cons h
    have ih := takesAttrs_keys isKey as bs h3
    cases hk : isKey a.1 with
    | true =>
      rw [keysOf_pos hk, keysOf_pos (a := (a.1, d)) hk]
      unfold Doc.takesAttrs Doc.takesAttr
      rw [h1, ih, Option.bind_some, h2]
      rfl
    | false => rw [keysOf_neg hk, keysOf_neg (a := (a.1, d)) hk, ih]

theorem asType_type {flt : CStr → List UInt8} {t : XBT} {d d' : Data} (h : asType flt t d = some d') : d'.type = t := by
  unfold asType at h
  split at h
  · next he => split at h <;> cases h; exact he
  · split at h
    · unfold textData at h
      split at h <;> cases h; rfl
    · cases h

theorem asType_same {flt : CStr → List UInt8} {t : XBT} {d d' : Data} (h : asType flt t d = some d') : sameData flt d d' = true := by
  have ht := asType_type h
  unfold asType at h
  unfold sameData
  split at h
  · next he =>
    split at h
    · cases h
    · cases h; rw [if_pos rfl]; simp
  · next hne =>
    split at h
    · next hs =>
      rw [if_neg (by rw [ht]; exact hne), if_pos hs.1, ht]
      unfold asText
      rw [h]
      simp
    · cases h

/-- a value that can be stored as type `t` can be compared with values of type `t` -/
theorem asType_comparable {flt : CStr → List UInt8} (hflt : ∀ s, (flt s).length = 4) {t : XBT} {d d' : Data} (h : asType flt t d = some d') (b : Data) (hb : b.type = t) : Comparable flt d b := by
  unfold asType at h
  unfold Comparable
  rw [hb]
  split at h
  · next he => exact Or.inl he
  · next hne =>
    split at h
    · next hs =>
      refine Or.inr ⟨fun _ => ?_, fun h' => absurd (hs.1.trans h'.symm) hne⟩
      have hle := (List.takeWhile_prefix (p := fun x : UInt8 => decide (x ≠ 0)) (l := d.bytes)).length_le
      obtain ⟨w, w1, -⟩ := fromString_total hflt (s := toC (cPrefix d.bytes)) (t := t) (wp := 0) (limit := d.bytes.length + 64) (by rw [h]; simp)
        (by unfold toC cPrefix; rw [List.length_map]; omega)
      rw [w1]; simp
    · cases h

theorem takesAttrs_types {flt : CStr → List UInt8} {D : Doc} : ∀ (as as' : List (Int × Data)), D.takesAttrs flt as = some as' → ∀ b ∈ as', D.typeOf false b.1 = some b.2.type
  | [], as', h, b, hb => by cases h; cases hb
  | a :: as, as', h, b, hb => by
    obtain ⟨t, d, bs, h1, h2, h3, rfl⟩ := takesAttrs_cons h
    rcases List.mem_cons.1 hb with rfl | hb
    · rw [h1, asType_type h2]
    · exact takesAttrs_types as bs h3 b hb

theorem takesAttrs_mem {flt : CStr → List UInt8} {D : Doc} : ∀ (as as' : List (Int × Data)), D.takesAttrs flt as = some as' → ∀ a ∈ as, ∃ t d, D.typeOf false a.1 = some t ∧ asType flt t a.2 = some d
  | [], as', h, b, hb => by cases hb
  | a :: as, as', h, b, hb => by
    obtain ⟨t, d, bs, h1, h2, h3, rfl⟩ := takesAttrs_cons h
    rcases List.mem_cons.1 hb with rfl | hb
    · exact ⟨t, d, h1, h2⟩
    · exact takesAttrs_mem as bs h3 b hb

theorem takesAttrs_names {flt : CStr → List UInt8} {D : Doc} : ∀ (as as' : List (Int × Data)), D.takesAttrs flt as = some as' → as'.map Prod.fst = as.map Prod.fst
  | [], as', h => by cases h; rfl
  | a :: as, as', h => by
    obtain ⟨t, d, bs, h1, h2, h3, rfl⟩ := takesAttrs_cons h
    simp only [List.map_cons, takesAttrs_names as bs h3]

theorem takesAttrs_first {flt : CStr → List UInt8} {D : Doc} : ∀ (as as' : List (Int × Data)), D.takesAttrs flt as = some as' → (as.map Prod.fst).Nodup → ∀ a ∈ as, keyThere flt as' a = true
  | [], _, _, _, a, ha => by cases ha
  | b :: as, as', h, hn, a, ha => by
    obtain ⟨t, d, bs, h1, h2, h3, rfl⟩ := takesAttrs_cons h
    rw [List.map_cons, List.nodup_cons] at hn
    unfold keyThere firstOf
    rw [List.find?_cons]
    rcases List.mem_cons.1 ha with rfl | ha
    · simp only [decide_true, Option.map_some, Option.getD_some]
      exact asType_same h2
    · have hne : b.1 ≠ a.1 := fun hc => hn.1 (by rw [hc]; exact List.mem_map.2 ⟨a, ha, rfl⟩)
      simp only [hne, decide_false]
      exact takesAttrs_first as bs h3 hn.2 a ha

theorem firstOf_keys {isKey : Int → Bool} {n : Int} (h : isKey n = true) : ∀ bs, firstOf n (keysOf isKey bs) = firstOf n bs
  | [] => rfl
  | b :: bs => by
    have ih := firstOf_keys h bs
    unfold firstOf at ih ⊢
    cases hk : isKey b.1 with
    | true =>
      rw [keysOf_pos hk, List.find?_cons, List.find?_cons]
      cases decide (b.1 = n) with
      | true => rfl
      | false => exact ih
    | false =>
      have hne : b.1 ≠ n := fun hc => by rw [hc, h] at hk; cases hk
      rw [keysOf_neg hk, List.find?_cons]
      simp only [hne, decide_false]
      exact ih

theorem keysOf_idem (isKey : Int → Bool) (as : List (Int × Data)) : keysOf isKey (keysOf isKey as) = keysOf isKey as := by
  unfold keysOf; rw [List.filter_filter]; simp

/-- an element that has the converted keys of an item has the same keys -/
theorem sameKeys_taken {flt : CStr → List UInt8} {D : Doc} {isKey : Int → Bool} {as bs : List (Int × Data)} (h : D.takesAttrs flt (keysOf isKey as) = some (keysOf isKey bs))
    (hn : ((keysOf isKey as).map Prod.fst).Nodup) : sameKeys flt isKey as bs = true := by
  unfold sameKeys
  rw [Bool.and_eq_true, List.all_eq_true, List.all_eq_true]
  refine ⟨fun a ha => ?_, fun b hb => ?_⟩
  · have := takesAttrs_first _ _ h hn a ha
    unfold keyThere at this
    rwa [firstOf_keys (List.mem_filter.1 ha).2] at this
  · have hb' : b.1 ∈ (keysOf isKey bs).map Prod.fst := List.mem_map.2 ⟨b, hb, rfl⟩
    rw [takesAttrs_names _ _ h] at hb'
    obtain ⟨a, ha, he⟩ := List.mem_map.1 hb'
    rw [List.any_eq_true]
    exact ⟨a, (List.mem_filter.1 ha).1, by simpa using he⟩

theorem attrsAre_of {D0 D : Doc} : ∀ (l : List Nat) (as : List (Int × Data)), AttrsAre D0 D l as → (l.map fun a => (D.id a, (⟨D.type a, readable (D.type a) (D.val a)⟩ : Data))) = as
  | [], [], _ => rfl
  | [], _ :: _, hh => hh.elim
  | _ :: _, [], hh => hh.elim
  | a :: l, x :: as, ⟨_, _, a3, a4, a5, a6, a7⟩ => by
    rw [List.map_cons, attrsAre_of l as a7, a3, a4, a5, a6.2]

theorem attrsAre_attrsOf {D0 D : Doc} {e : Nat} {as : List (Int × Data)} (h : AttrsAre D0 D (D.forest.at' (.attrs e)) as) : D.attrsOf e = as := attrsAre_of _ _ h

theorem attrsAre_mem {D0 D : Doc} : ∀ (l : List Nat) (as : List (Int × Data)), AttrsAre D0 D l as → ∀ a ∈ l, ∃ x ∈ as, D.id a = x.1 ∧ D.type a = x.2.type ∧ D.val a = x.2.bytes ∧ DataGood x.2
  | [], [], _, a, ha => by cases ha
  | [], _ :: _, hh, _, _ => hh.elim
  | _ :: _, [], hh, _, _ => hh.elim
  | a :: l, x :: as, ⟨_, _, a3, a4, a5, a6, a7⟩, b, hb => by
    rcases List.mem_cons.1 hb with rfl | hb
    · exact ⟨x, by simp, a3, a4, a5, a6⟩
    · obtain ⟨y, hy, h⟩ := attrsAre_mem l as a7 b hb
      exact ⟨y, List.mem_cons_of_mem _ hy, h⟩

/-- new elements can be compared with items whose keys can be stored -/
theorem clear_new {flt : CStr → List UInt8} (hflt : ∀ s, (flt s).length = 4) {isKey : Int → Bool} {D0 D1 D : Doc} {e : Nat} {bs : List (Int × Data)} (h : AttrsAre D0 D (D.forest.at' (.attrs e)) bs)
    (hb : ∀ b ∈ bs, isKey b.1 = true → D1.typeOf false b.1 = some b.2.type) {as : List (Int × Data)} (ha : D1.takesAttrs flt (keysOf isKey as) ≠ none) : D.Clear flt isKey e as := by
  intro a hm hk
  obtain ⟨x, hx, x1, x2, x3, x4⟩ := attrsAre_mem _ _ h a hm
  refine ⟨by rw [x2, x3]; exact x4.1, fun d hd => ?_⟩
  cases ht : D1.takesAttrs flt (keysOf isKey as) with
  | none => exact absurd ht ha
  | some as' =>
    obtain ⟨t, d', t1, t2⟩ := takesAttrs_mem _ _ ht (D.id a, d) (List.mem_filter.2 ⟨hd, hk⟩)
    simp only at t1 t2
    rw [x1, hb x hx (by rw [← x1]; exact hk)] at t1
    injection t1 with t1
    exact asType_comparable hflt t2 _ (by rw [x2]; exact t1)

/-! ### copying keys -/

theorem copyKeyAttrs_ok {E : Env} {maxSize : Nat} (h1 : 0x4000 ≤ maxSize) (h2 : maxSize < 2147483648) {flt : CStr → List UInt8} (hflt : ∀ s, (flt s).length = 4) {isKey : Int → Bool} {f : Img} (hf : f.size < 2147483648)
    {x : Int} {p : Nat} : ∀ (as as' : List (Int × Data)) (i : Nat) (P : Pool) (D : Doc), Sess E maxSize P D → D.forest.Elem p → D.takesAttrs flt (keysOf isKey as) = some as' →
      (∀ j (h : j < as.length), ∃ a, f.getParamByIndex x ((i + j : Nat) : Int) = .ok (some a) ∧ f.pName a = .ok as[j].1 ∧ f.pGetData x a = .ok as[j].2) →
      P.alloc + attrsRoom (keysOf isKey as) ≤ P.limit →
      ∃ Q D' l, P.copyKeyAttrs flt isKey f p x as.length i = .ok (Q, true) ∧ Sess E maxSize Q D' ∧ GrewBelow p D D' ∧ D'.forest.at' (.kids p) = D.forest.at' (.kids p) ∧
        D'.forest.at' (.attrs p) = D.forest.at' (.attrs p) ++ l ∧ AttrsAre D D' l as' ∧ Used P Q (attrsRoom (keysOf isKey as))
  | [], as', i, P, D, hs, hp, ht, _, _ => by
    cases ht
    exact ⟨P, D, [], rfl, hs, grew_refl p D, rfl, (List.append_nil _).symm, trivial, Nat.le_add_right _ _, Nat.le_refl _, rfl⟩
  | a :: as, as', i, P, D, hs, hp, ht, hsh, room => by
    obtain ⟨at1, g1, g2, g3⟩ := hsh 0 (by simp)
    simp only [List.getElem_cons_zero, Nat.add_zero] at g1 g2 g3
    have hsh' : ∀ j (h : j < as.length), ∃ a, f.getParamByIndex x ((i + 1 + j : Nat) : Int) = .ok (some a) ∧ f.pName a = .ok as[j].1 ∧ f.pGetData x a = .ok as[j].2 := fun j hj => by
      obtain ⟨b, b1, b2, b3⟩ := hsh (j + 1) (by simp; omega)
      refine ⟨b, ?_, by simpa using b2, by simpa using b3⟩
      rw [show i + 1 + j = i + (j + 1) by omega]; exact b1
    have hi : (i : Int) + 1 = ((i + 1 : Nat) : Int) := by push_cast; rfl
    cases hk : isKey a.1 with
    | false =>
      rw [keysOf_neg hk] at ht room ⊢
      obtain ⟨Q, D', l, r1, r⟩ := copyKeyAttrs_ok h1 h2 hflt hf as as' (i + 1) P D hs hp ht hsh' room
      refine ⟨Q, D', l, ?_, r⟩
      show Pool.copyKeyAttrs flt isKey f p x (as.length + 1) i P = _
      unfold Pool.copyKeyAttrs
      rw [g1]
      simp only [Out.ok_bind]
      rw [g2]
      simp only [Out.ok_bind]
      rw [hk, if_pos rfl, hi]
      exact r1
    | true =>
      rw [keysOf_pos hk] at ht room ⊢
      unfold Doc.takesAttrs at ht
      simp only [Option.bind_eq_some_iff, Option.map_eq_some_iff] at ht
      obtain ⟨a', ha', as'', has, rfl⟩ := ht
      unfold attrsRoom at room
      obtain ⟨Q1, o, q1, q2, q3, q4, q5, q6⟩ := attrData_ok h1 h2 hflt hs hp (id := a.1) (d := a.2) (i16_is16 g2) (pGetData_from hf g3) ha' (by omega)
      have hg := withAttr_grew (p := p) (id := a.1) (t := a'.2.type) (v := a'.2.bytes) q3
      have hal := q4.alloc
      have hli := q4.limit
      obtain ⟨Q, D', l, r1, r2, r3, r4, r5, r6, r7⟩ := copyKeyAttrs_ok h1 h2 hflt hf as as'' (i + 1) Q1 _ q2 (hg.elem p hp).1 (by rw [takesAttrs_congr hg.syms hg.ready]; exact has) hsh' (by omega)
      have hoE : (D.withAttr p o a.1 a'.2.type a'.2.bytes).forest.Elem o := ⟨.attrs p, by
        show o ∈ if _ then _ else _
        rw [if_pos rfl]; simp⟩
      obtain ⟨e1, -, e2, e3, e4⟩ := r3.elem o hoE
      refine ⟨Q, D', o :: l, ?_, r2, grew_trans hg r3, ?_, ?_, ?_, ?_⟩
      · show Pool.copyKeyAttrs flt isKey f p x (as.length + 1) i P = _
        unfold Pool.copyKeyAttrs
        rw [g1]
        simp only [Out.ok_bind]
        rw [g2]
        simp only [Out.ok_bind]
        rw [hk, if_neg (by simp)]
        unfold Pool.attrCopy
        rw [g3, g2]
        simp only [Out.ok_bind]
        rw [q1]
        simp only [Out.ok_bind, if_true]
        rw [hi]
        exact r1
      · rw [r4, withAttr_at, if_neg (by simp)]
      · rw [r5, show (D.withAttr p o a.1 a'.2.type a'.2.bytes).forest.at' (.attrs p) = D.forest.at' (.attrs p) ++ [o] from if_pos rfl]; simp
      · refine ⟨q3, e1, ?_, ?_, ?_, q6, ?_⟩
        · rw [e2, q5]; exact if_pos rfl
        · rw [e3]; exact if_pos rfl
        · rw [e4]; exact if_pos rfl
        · exact attrsAre_mono (p := p) (D := D') (fun e he => (hg.elem e he).1) ⟨fun _ _ _ => ⟨rfl, rfl⟩, fun _ he => ⟨he, rfl, rfl, rfl⟩⟩ _ _ r6
      · unfold attrsRoom; exact (q4.trans r7).more (by omega)

theorem copyKeys_ok {E : Env} {maxSize : Nat} (h1 : 0x4000 ≤ maxSize) (h2 : maxSize < 2147483648) {flt : CStr → List UInt8} (hflt : ∀ s, (flt s).length = 4) {isKey : Int → Bool} {f : Img} (hf : f.size < 2147483648)
    {x : Int} {p : Nat} {as as' : List (Int × Data)} {P : Pool} {D : Doc} (h : Sess E maxSize P D) (hp : D.forest.Elem p) (hk : D.forest.at' (.kids p) = []) (ha : D.forest.at' (.attrs p) = [])
    (hid : f.name x = .ok (D.id p)) (hsh : ShowsAttrs f x as) (ht : D.takesAttrs flt (keysOf isKey as) = some as') (room : P.alloc + attrsRoom as ≤ P.limit) :
    ∃ Q D', P.copyKeys flt isKey f p x = .ok (Q, true) ∧ Sess E maxSize Q D' ∧ GrewBelow p D D' ∧ D'.forest.at' (.kids p) = [] ∧ AttrsAre D D' (D'.forest.at' (.attrs p)) as' ∧ Used P Q (attrsRoom as) := by
  obtain ⟨els, V, fl, k⟩ := sess_keeps h1 h2 h
  have hr := attrsRoom_keys isKey as
  obtain ⟨Q, D', l, r1, r2, r3, r4, r5, r6, r7⟩ := copyKeyAttrs_ok h1 h2 hflt hf as as' 0 P D h hp ht (fun j hj => by rw [Nat.zero_add]; exact hsh.2 j hj) (by omega)
  refine ⟨Q, D', ?_, r2, r3, r4.trans hk, by rw [r5, ha, List.nil_append]; exact r6, r7.more hr⟩
  unfold Pool.copyKeys
  rw [copyChecks_ok k hp hk ha hid]
  simp only [Out.ok_bind, Bool.true_eq_false, if_false]
  rw [hsh.1]
  simp only [Out.ok_bind, Int.toNat_natCast]
  exact r1

/-! ### new elements on the path -/

theorem plainTag_ok {E : Env} (hE : ∀ n, E.trunc n = true) {maxSize : Nat} (h1 : 0x4000 ≤ maxSize) (h2 : maxSize < 2147483648) {P : Pool} {D : Doc} (h : Sess E maxSize P D) {id : Int} (hid : Is16 id)
    (room : P.alloc + 80 + 0x6000 ≤ P.mmapSize) :
    ∃ Q o k, P.plainTag E id = .ok (Q, some o) ∧ Sess E maxSize Q (D.plus k o true id NULL []) ∧ D.forest.at' (.loose k) = [] ∧ ¬ D.forest.Elem o ∧ Used P Q 40 ∧ Q.alloc + 16000 ≤ Q.limit := by
  obtain ⟨els, V, fl, kp⟩ := sess_keeps h1 h2 h
  have hsm := kp.sees.small
  obtain ⟨P1, p1, p2, p3, p4, p5⟩ := makeSpace_ok hE kp.sees.ok hsm (n := 0x4000) (by omega)
  have hs1 := Sess.space h p1
  obtain ⟨N, hN⟩ := sess_loose h
  have hk := hN N (Nat.le_refl _)
  obtain ⟨els1, V1, fl1, k1⟩ := sess_keeps h1 h2 hs1
  obtain ⟨Q, o, q1, q2⟩ := makeNull_ok (E := E) (id := id) k1.sees.ok k1.sees.small (by omega)
  obtain ⟨-, g2⟩ := make_spec k1.sees.ok q1
  obtain ⟨-, b1, -⟩ := g2 o rfl
  have hsd := Sess.made (b := true) (k := N) (size := 0) (t := NULL) (bs := []) hs1 hid rfl q1 hk
  have hal := q2.alloc
  have hli := q2.limit
  refine ⟨Q, o, N, ?_, hsd, hk, fresh_elem k1 b1, ⟨by omega, by omega, by rw [q2.map, p5]⟩, by omega⟩
  unfold Pool.plainTag
  rw [p1]
  exact q1

theorem grew_into {p o : Nat} {D D2 D3 : Doc} (h : GrewBelow p D D2) (ho : ¬ D.forest.Elem o) (h' : GrewBelow o D2 D3) : GrewBelow p D D3 := by
  refine ⟨fun q hq hne => ?_, fun k => (h'.loose k).trans (h.loose k), fun e he => ?_, h'.root.trans h.root, h'.syms.trans h.syms, h'.ready.trans h.ready⟩
  · obtain ⟨a, b⟩ := h.kids q hq hne
    obtain ⟨c, d⟩ := h'.kids q (h.elem q hq).1 fun hc => ho (hc ▸ hq)
    exact ⟨c.trans a, d.trans b⟩
  · obtain ⟨a, b1, b2, b3, b4⟩ := h.elem e he
    obtain ⟨c, d1, d2, d3, d4⟩ := h'.elem e a
    exact ⟨c, d1.trans b1, d2.trans b2, d3.trans b3, d4.trans b4⟩

theorem fileShows_attrs {f : Img} {x : Int} {t : CTree} (h : FileShows f x t) : f.name x = .ok t.id ∧ ShowsAttrs f x t.attrs := by
  cases t
  unfold FileShows at h
  exact ⟨h.1, h.2.1, h.2.2.1⟩

theorem chain_congr {flt : CStr → List UInt8} {isKey : Int → Bool} {whole : Bool} {D D' : Doc} (hs : D'.syms = D.syms) (hr : D'.ready = D.ready) : ∀ us t, D'.chain flt isKey whole t us = D.chain flt isKey whole t us
  | [], t => by unfold Doc.chain; rw [takes_congr hs hr, takesAttrs_congr hs hr]
  | u :: us, t => by unfold Doc.chain; rw [takesAttrs_congr hs hr, chain_congr hs hr us u]

theorem takes_attrs {flt : CStr → List UInt8} {D : Doc} {t t' : CTree} (ht : D.takes flt t = some t') : D.takesAttrs flt t.attrs = some t'.attrs ∧ t'.id = t.id := by
  cases t
  unfold Doc.takes at ht
  simp only [Option.bind_eq_some_iff, Option.map_eq_some_iff] at ht
  obtain ⟨as', has, ks', hks, rfl⟩ := ht
  exact ⟨has, rfl⟩

theorem chain_keys {flt : CStr → List UInt8} {isKey : Int → Bool} {whole : Bool} {D : Doc} (us : List CTree) (t c : CTree) (h : D.chain flt isKey whole t us = some c) : D.takesAttrs flt (keysOf isKey t.attrs) ≠ none := by
  cases us with
  | nil =>
    unfold Doc.chain at h
    cases whole with
    | true =>
      rw [if_pos rfl, Option.map_eq_some_iff] at h
      obtain ⟨t', ht', -⟩ := h
      rw [takesAttrs_keys isKey _ _ (takes_attrs ht').1]; simp
    | false =>
      rw [if_neg (by simp), Option.map_eq_some_iff] at h
      obtain ⟨bs, hbs, -⟩ := h
      rw [hbs]; simp
  | cons v vs =>
    unfold Doc.chain at h
    simp only [Option.bind_eq_some_iff] at h
    obtain ⟨bs, hbs, -⟩ := h
    rw [hbs]; simp

theorem chain_value {flt : CStr → List UInt8} {isKey : Int → Bool} {whole : Bool} {D : Doc} (us : List CTree) (t c : CTree) (h : D.chain flt isKey whole t us = some c) : c.value = ⟨NULL, []⟩ := by
  cases us with
  | nil =>
    unfold Doc.chain at h
    cases whole with
    | true => rw [if_pos rfl, Option.map_eq_some_iff] at h; obtain ⟨_, _, rfl⟩ := h; rfl
    | false => rw [if_neg (by simp), Option.map_eq_some_iff] at h; obtain ⟨_, _, rfl⟩ := h; rfl
  | cons v vs =>
    unfold Doc.chain at h
    simp only [Option.bind_eq_some_iff, Option.map_eq_some_iff] at h
    obtain ⟨_, _, _, _, rfl⟩ := h
    rfl

/-- an element `o` is added to the children of `p` -/
theorem addTag_ok {E : Env} (hE : ∀ n, E.trunc n = true) {maxSize : Nat} (h1 : 0x4000 ≤ maxSize) (h2 : maxSize < 2147483648) {P : Pool} {D : Doc} (h : Sess E maxSize P D) {p : Nat} (hp : D.forest.Elem p) {id : Int}
    (hid : Is16 id) (room : P.alloc + 80 + 0x6000 ≤ P.mmapSize) :
    ∃ Q1 o Q D', P.plainTag E id = .ok (Q1, some o) ∧ Q1.add p (some (o : Int)) = .ok Q ∧ Sess E maxSize Q D' ∧ GrewBelow p D D' ∧ D'.forest.at' (.attrs p) = D.forest.at' (.attrs p) ∧
      D'.forest.at' (.kids p) = D.forest.at' (.kids p) ++ [o] ∧ ¬ D.forest.Elem o ∧ D'.forest.Elem o ∧ D'.forest.at' (.kids o) = [] ∧ D'.forest.at' (.attrs o) = [] ∧ D'.id o = id ∧ D'.type o = NULL ∧ D'.val o = [] ∧
      Used P Q 40 ∧ Q.alloc + 16000 ≤ Q.limit ∧ (D.forest.at' (.kids p) = [] → Q1.eOffset o = .ok (o : Int) ∧ Q1.wr ((p : Int) + 16) (le32 o) = .ok Q) := by
  obtain ⟨els, V, fl, k⟩ := sess_keeps h1 h2 h
  obtain ⟨Q1, o, n, q1, q2, q3, q4, q5, q6⟩ := plainTag_ok hE h1 h2 h hid room
  obtain ⟨nb1, nb2⟩ := newborn k q4
  obtain ⟨Q, D', w1, w2, w3, w4, w5, w6, w7, w8, w9, w10⟩ := adopt_ok h1 h2 q3 q4 hp (grew_refl o _) q2
  have hpo : o ≠ p := fun hc => q4 (hc ▸ hp)
  have hoE : (D.plus n o true id NULL []).forest.Elem o := ⟨.loose n, by rw [plus_at, if_pos rfl]; simp⟩
  obtain ⟨l1, l2⟩ := w7.lists o hoE hpo
  have hal := w3.alloc
  have hli := w3.limit
  refine ⟨Q1, o, Q, D', q1, w1, w2, w4, w5, w6, q4, w8, ?_, ?_, ?_, w9, w10, (q5.trans w3).more (Nat.le_refl _), by omega, fun hk => ?_⟩
  · rw [l1, plus_at, if_neg (by simp)]; exact nb1
  · rw [l2, plus_at, if_neg (by simp)]; exact nb2
  · rw [(w7.elem o hoE).2.1]; exact if_pos rfl
  · obtain ⟨els1, V1, fl1, k1⟩ := sess_keeps h1 h2 q2
    have ho := (k1.lists.mem o).1 hoE
    have hpE : (D.plus n o true id NULL []).forest.Elem p := plus_elem q3 hp
    have hpe := (k1.lists.mem p).1 hpE
    refine ⟨k1.sees.offset ho, ?_⟩
    have hfl : listField (fl1 o) = 16 := by
      unfold listField
      rw [if_pos ((k1.lists.bit o ho).2 (if_pos rfl))]
    have hv : V1 16 p = 0 := by
      rw [k1.lists.head p hpe 16 (Or.inl rfl), show lst 16 p = .kids p from rfl, plus_at, if_neg (by simp), hk]
      rfl
    unfold Pool.add at w1
    simp only at w1
    rw [k1.sees.flags ho, Out.ok_bind, hfl, k1.sees.get (k := 16) hpe (by unfold IsPtr; omega) _ rfl, Out.ok_bind, hv, if_pos (by rfl), k1.sees.offset ho, Out.ok_bind] at w1
    exact w1

theorem pathLoop_new {E : Env} {flt : CStr → List UInt8} {isKey : Int → Bool} {f : Img} {whole copy : Bool} {fuel : Nat} {P P1 Q1 Q : Pool} {src dst x id : Int} {o : Nat} (xs : List Int)
    (hm : P.copyMid flt isKey f copy dst src = .ok (P1, true)) (hfk : P1.findKeys flt isKey f dst x fuel = .ok none) (hn : f.name x = .ok id) (hq : P1.plainTag E id = .ok (Q1, some o))
    (ha : Q1.add dst (some (o : Int)) = .ok Q) : P.pathLoop E flt isKey f whole fuel (x :: xs) src dst copy = Q.pathLoop E flt isKey f whole fuel xs x o true := by
  rw [Pool.pathLoop, hm, Out.ok_bind, if_neg (by simp), hfk, Out.ok_bind]
  simp only
  rw [hn, Out.ok_bind, hq, Out.ok_bind]
  simp only
  rw [ha, Out.ok_bind]

theorem pathLoop_old {E : Env} {flt : CStr → List UInt8} {isKey : Int → Bool} {f : Img} {whole copy : Bool} {fuel : Nat} {P P1 : Pool} {src dst x c : Int} (xs : List Int)
    (hm : P.copyMid flt isKey f copy dst src = .ok (P1, true)) (hfk : P1.findKeys flt isKey f dst x fuel = .ok (some c)) :
    P.pathLoop E flt isKey f whole fuel (x :: xs) src dst copy = P1.pathLoop E flt isKey f whole fuel xs x c false := by
  rw [Pool.pathLoop, hm, Out.ok_bind, if_neg (by simp), hfk, Out.ok_bind]

theorem dataGood_null : DataGood ⟨NULL, []⟩ := ⟨rfl, rfl⟩

/-- the elements of a path below a new element `p` for the item `t` -/
theorem chain_ok {E : Env} (hE : ∀ n, E.trunc n = true) {maxSize : Nat} (h1 : 0x4000 ≤ maxSize) (h2 : maxSize < 2147483648) {flt : CStr → List UInt8} (hflt : ∀ s, (flt s).length = 4) {isKey : Int → Bool} {f : Img}
    (hf : f.size + 64 < 2147483648) {whole : Bool} : ∀ (us : List CTree) (t c : CTree) (xs : List Int) (x : Int) (p : Nat) (P : Pool) (D : Doc), Sess E maxSize P D → D.forest.Elem p → D.forest.at' (.kids p) = [] →
      D.forest.at' (.attrs p) = [] → D.id p = t.id → D.chain flt isKey whole t us = some c → FileShows f x t → FileShowsAll f xs us → (∀ u ∈ t :: us, FewKeys isKey u.attrs) → lightKids (t :: us) →
      P.alloc + attrsRoom t.attrs ≤ P.limit → P.alloc + t.room + kidsRoom us + 0x6000 ≤ P.mmapSize →
      ∃ (Q : Pool) (D' : Doc) (l N : Nat), (∀ fuel, N ≤ fuel → P.pathLoop E flt isKey f whole fuel xs x p true = .ok (Q, some (l : Int))) ∧ Sess E maxSize Q D' ∧ GrewBelow p D D' ∧ HasTree D D' p c ∧ D'.forest.Elem l ∧
        sameKeys flt isKey t.attrs (D'.attrsOf p) = true ∧ D'.Leads flt isKey p us l ∧ D'.ClearPath flt isKey p us ∧
        ∀ as, D.takesAttrs flt (keysOf isKey as) ≠ none → D'.Clear flt isKey p as := by
  intro us
  induction us with
  | nil =>
    intro t c xs x p P D hs hp hk ha hid hc hx hxs hfew hlight hroom hbig
    have hxs' : xs = [] := by cases xs with | nil => rfl | cons a l => unfold FileShowsAll at hxs; exact hxs.elim
    subst hxs'
    obtain ⟨hnm, hsa⟩ := fileShows_attrs hx
    have hfw := hfew t (by simp)
    unfold lightKids at hlight
    unfold kidsRoom at hbig
    unfold Doc.chain at hc
    cases whole with
    | true =>
      rw [if_pos rfl, Option.map_eq_some_iff] at hc
      obtain ⟨t', ht, rfl⟩ := hc
      obtain ⟨Q, D', c1, c2, c3, c4, c5⟩ := copyAll_ok hE h1 h2 hflt (by omega) t t' x p P D hs hp hk ha hid ht hx hroom hlight.2.1 (by omega)
      have hA : AttrsAre D D' (D'.forest.at' (.attrs p)) t'.attrs := by cases t'; unfold HasTree at c4; exact c4.2.1
      have hta := (takes_attrs ht).1
      refine ⟨Q, D', p, t.steps, fun fuel hfu => ?_, c2, c3, ?_, (c3.elem p hp).1, ?_, rfl, trivial, fun as has => ?_⟩
      · unfold Pool.pathLoop Pool.copyLast
        rw [if_pos rfl, if_pos rfl, c1 fuel hfu]
        rfl
      · have hid' := (takes_attrs ht).2
        cases t'
        unfold HasTree at c4 ⊢
        exact ⟨c4.1.trans hid', c4.2⟩
      · rw [attrsAre_attrsOf hA]
        exact sameKeys_taken (takesAttrs_keys isKey _ _ hta) hfw.1
      · exact clear_new hflt hA (fun b hb _ => takesAttrs_types _ _ hta b hb) has
    | false =>
      rw [if_neg (by simp), Option.map_eq_some_iff] at hc
      obtain ⟨as', ht, rfl⟩ := hc
      obtain ⟨Q, D', c1, c2, c3, c4, c5, c6⟩ := copyKeys_ok h1 h2 hflt (isKey := isKey) (by omega) hs hp hk ha (by rw [hid]; exact hnm) hsa ht hroom
      have hkk : keysOf isKey as' = as' := by
        refine List.filter_eq_self.2 fun b hb => ?_
        have : b.1 ∈ as'.map Prod.fst := List.mem_map.2 ⟨b, hb, rfl⟩
        rw [takesAttrs_names _ _ ht] at this
        obtain ⟨a, ha, he⟩ := List.mem_map.1 this
        rw [← he]; exact (List.mem_filter.1 ha).2
      refine ⟨Q, D', p, 0, fun fuel hfu => ?_, c2, c3, ?_, (c3.elem p hp).1, ?_, rfl, trivial, fun as has => ?_⟩
      · unfold Pool.pathLoop Pool.copyLast
        rw [if_pos rfl, if_neg (by simp), c1]
        rfl
      · unfold HasTree
        refine ⟨(c3.elem p hp).2.2.1.trans hid, c5, ?_⟩
        rw [c4]; unfold HasKids; trivial
      · rw [attrsAre_attrsOf c5]
        exact sameKeys_taken (by rw [hkk]; exact ht) hfw.1
      · exact clear_new hflt c5 (fun b hb _ => takesAttrs_types _ _ ht b hb) has
  | cons u us ih =>
    intro t c xs x p P D hs hp hk ha hid hc hx hxs hfew hlight hroom hbig
    obtain ⟨y, ys, rfl⟩ : ∃ y ys, xs = y :: ys := by
      cases xs with
      | nil => unfold FileShowsAll at hxs; exact hxs.elim
      | cons y ys => exact ⟨y, ys, rfl⟩
    unfold FileShowsAll at hxs
    obtain ⟨hy, hys⟩ := hxs
    obtain ⟨hnm, hsa⟩ := fileShows_attrs hx
    obtain ⟨hnm', hsa'⟩ := fileShows_attrs hy
    have hfw := hfew t (by simp)
    have hfw' := hfew u (by simp)
    unfold lightKids at hlight
    unfold Doc.chain at hc
    simp only [Option.bind_eq_some_iff, Option.map_eq_some_iff] at hc
    obtain ⟨as', ht, c', hc', rfl⟩ := hc
    obtain ⟨Q1, D1, c1, c2, c3, c4, c5, c6⟩ := copyKeys_ok h1 h2 hflt (isKey := isKey) (by omega) hs hp hk ha (by rw [hid]; exact hnm) hsa ht hroom
    have hp1 := (c3.elem p hp).1
    obtain ⟨els1, V1, fl1, k1⟩ := sess_keeps h1 h2 c2
    have hra : attrsRoom t.attrs ≤ t.room := by cases t; unfold CTree.room; exact Nat.le_add_right _ _
    have hal := c6.alloc
    have hmp := c6.map
    have hkr : kidsRoom (u :: us) = u.value.bytes.length + 80 + u.room + kidsRoom us := by rw [kidsRoom]
    obtain ⟨Q2, o, Q3, D2, q1, q2, q3, q4, q5, q6, q7, q8, q9, q10, q11, q12, q13, q14, q15, -⟩ := addTag_ok hE h1 h2 c2 hp1 (i16_is16 hnm') (by omega)
    have hoD : ¬ D.forest.Elem o := fun hc => q7 (c3.elem o hc).1
    have hop : o ≠ p := fun hc => q7 (hc ▸ hp1)
    have hal3 := q14.alloc
    have hmp3 := q14.map
    have hlu : attrsRoom u.attrs ≤ 16000 := by have := hlight.2.2; unfold lightKids at this; exact this.1
    have hsy : D2.syms = D.syms := q4.syms.trans c3.syms
    have hrd : D2.ready = D.ready := q4.ready.trans c3.ready
    obtain ⟨Q, D', l, N, r1, r2, r3, r4, r5, r6, r7, r8, r9⟩ := ih u c' ys y o Q3 D2 q3 q8 q9 q10 q11 (by rw [chain_congr hsy hrd]; exact hc') hy hys
      (fun v hv => hfew v (List.mem_cons_of_mem _ hv)) hlight.2.2 (by omega) (by rw [hmp3, hmp]; omega)
    have hg2 : GrewBelow p D D2 := grew_trans c3 q4
    have hp2 : D2.forest.Elem p := (hg2.elem p hp).1
    have hkids : D'.forest.at' (.kids p) = [o] := by rw [(r3.kids p hp2 hop.symm).1, q6, c4]; rfl
    have hattrs : D'.forest.at' (.attrs p) = D1.forest.at' (.attrs p) := by rw [(r3.kids p hp2 hop.symm).2, q5]
    have hA : AttrsAre D D' (D'.forest.at' (.attrs p)) as' := by
      rw [hattrs]
      exact attrsAre_mono (fun _ h => h) r3.below _ _ (attrsAre_mono (fun _ h => h) q4.below _ _ c5)
    have hkk : keysOf isKey as' = as' := by
      refine List.filter_eq_self.2 fun b hb => ?_
      have : b.1 ∈ as'.map Prod.fst := List.mem_map.2 ⟨b, hb, rfl⟩
      rw [takesAttrs_names _ _ ht] at this
      obtain ⟨a, ha, he⟩ := List.mem_map.1 this
      rw [← he]; exact (List.mem_filter.1 ha).2
    have hchild : D'.childOf flt isKey p u.attrs = some o := by
      unfold Doc.childOf
      rw [hkids, List.find?_cons, r6]
    have hut : D.takesAttrs flt (keysOf isKey u.attrs) ≠ none := chain_keys us u c' hc'
    refine ⟨Q, D', l, N + 1, fun fuel hfu => ?_, r2, grew_into hg2 hoD r3, ?_, r5, ?_, ⟨o, hchild, r7⟩, ⟨fun e he => ?_, fun e he => ?_⟩, fun as has => ?_⟩
    · have hno : D1.childOf flt isKey p u.attrs = none := by unfold Doc.childOf; rw [c4]; rfl
      have hfk := findKeys_spec hflt isKey hf k1 ((k1.lists.mem p).1 hp1) hsa' hfw'.2 (by rw [c4]; simp) (fuel := fuel) (by rw [c4]; exact ⟨by rw [List.length_nil]; omega, by simp⟩)
      rw [hno, Option.map_none] at hfk
      rw [pathLoop_new ys (by rw [Pool.copyMid, if_pos rfl]; exact c1) hfk hnm' q1 q2]
      exact r1 fuel (by omega)
    · unfold HasTree
      refine ⟨(r3.elem p hp2).2.2.1.trans ((hg2.elem p hp).2.2.1.trans hid), hA, ?_⟩
      rw [hkids]
      unfold HasKids
      obtain ⟨e1, -, e2, e3, e4⟩ := r3.elem o q8
      rw [chain_value us u c' hc']
      refine ⟨hoD, e1, e3.trans q12, e4.trans q13, dataGood_null, ?_, by unfold HasKids; trivial⟩
      exact hasTree_mono (D0 := D2) (D := D') (D' := D') (p := p) (fun e he => (hg2.elem e he).1) ⟨fun _ _ _ => ⟨rfl, rfl⟩, fun _ he => ⟨he, rfl, rfl, rfl⟩⟩ hp2 c' o e1 hop r4
    · rw [attrsAre_attrsOf hA]
      exact sameKeys_taken (by rw [hkk]; exact ht) hfw.1
    · rw [hkids] at he
      simp only [List.mem_singleton] at he
      subst he
      exact r9 _ (by rw [takesAttrs_congr hsy hrd]; exact hut)
    · rw [hchild] at he
      cases he
      exact r8
    · exact clear_new hflt hA (fun b hb _ => takesAttrs_types _ _ ht b hb) has

/-! ### the whole path -/

/-- the root of a document is an element -/
theorem sess_root {E : Env} {maxSize : Nat} (h1 : 0x4000 ≤ maxSize) (h2 : maxSize < 2147483648) {P : Pool} {D : Doc} (h : Sess E maxSize P D) : D.root ≠ 0 → D.forest.Elem D.root := by
  induction h with
  | start => intro h; exact absurd rfl h
  | created => intro h; exact absurd rfl h
  | reopened _ _ ih => exact ih
  | killed _ _ _ _ ih => exact ih
  | made _ _ _ _ hk ih => exact fun h => plus_elem hk (ih h)
  | refused _ _ ih => exact ih
  | copied _ _ _ hk ih => exact fun h => plus_elem hk (ih h)
  | notCopied _ _ ih => exact ih
  | space _ _ ih => exact ih
  | step hs st hr ih =>
    intro h
    obtain ⟨els, V, fl, k⟩ := sess_keeps h1 h2 hs
    obtain ⟨V', fl', k'⟩ := k.step st hr
    exact (k'.lists.mem _).2 ((k.lists.mem _).1 (ih h))
  | stored _ _ _ _ ih => exact ih
  | retyped _ _ _ ih => exact ih
  | written _ _ _ ih => exact ih
  | @rooted _ _ D e _ he _ ih =>
    intro _
    show D.forest.Elem (if D.root = 0 then e else D.root)
    split
    · exact he
    · next h => exact ih h
  | registered _ _ _ _ _ _ ih => exact ih
  | unregistered _ _ _ _ _ _ ih => exact ih
  | altered _ _ ih => exact ih
  | allRegistered _ _ ih => exact ih
  | cleared _ _ _ => intro h; exact absurd rfl h

theorem list_len {F : Forest} {els V fl} (h : Lists F els V fl) (q : Place) : (F.at' q).length ≤ els.length :=
  (h.nodup q).length_le_of_subset fun x hx => (h.mem x).1 ⟨q, hx⟩

theorem childOf_mem {flt : CStr → List UInt8} {isKey : Int → Bool} {D : Doc} {p c : Nat} {as : List (Int × Data)} (h : D.childOf flt isKey p as = some c) : c ∈ D.forest.at' (.kids p) := List.mem_of_find?_eq_some h

theorem path_prefix {E : Env} {flt : CStr → List UInt8} (hflt : ∀ s, (flt s).length = 4) {isKey : Int → Bool} {f : Img} (hf : f.size + 64 < 2147483648) {whole : Bool} {P : Pool} {D : Doc} {els V fl} (k : Keeps P D els V fl)
    {fuel : Nat} (hfu : els.length < fuel) {q : Nat} {rest : List CTree} : ∀ (pre : List CTree) (xs : List Int) (src : Int) (p : Nat), p ∈ els → D.Leads flt isKey p pre q → D.ClearPath flt isKey p (pre ++ rest) →
      FileShowsAll f xs pre → (∀ u ∈ pre, FewKeys isKey u.attrs) →
      q ∈ els ∧ D.ClearPath flt isKey q rest ∧ ∃ src', ∀ ys, P.pathLoop E flt isKey f whole fuel (xs ++ ys) src p false = P.pathLoop E flt isKey f whole fuel ys src' q false := by
  intro pre
  induction pre with
  | nil =>
    intro xs src p hp hl hc hx _
    have hxs : xs = [] := by cases xs with | nil => rfl | cons a l => unfold FileShowsAll at hx; exact hx.elim
    subst hxs
    cases hl
    exact ⟨hp, hc, src, fun ys => rfl⟩
  | cons u pre ih =>
    intro xs src p hp hl hc hx hfew
    obtain ⟨y, ys, rfl⟩ : ∃ y ys, xs = y :: ys := by
      cases xs with
      | nil => unfold FileShowsAll at hx; exact hx.elim
      | cons y ys => exact ⟨y, ys, rfl⟩
    unfold FileShowsAll at hx
    obtain ⟨c, c1, c2⟩ := hl
    obtain ⟨d1, d2⟩ := hc
    have hce : c ∈ els := (k.lists.mem c).1 ⟨_, childOf_mem c1⟩
    obtain ⟨e1, e2, src', e3⟩ := ih ys y c hce c2 (d2 c c1) hx.2 fun v hv => hfew v (List.mem_cons_of_mem _ hv)
    have hfk := findKeys_spec hflt isKey hf k hp (fileShows_attrs hx.1).2 (hfew u (by simp)).2 d1 (fuel := fuel)
      ⟨Nat.lt_of_le_of_lt (list_len k.lists _) hfu, fun c _ => Nat.lt_of_le_of_lt (list_len k.lists _) hfu⟩
    rw [c1] at hfk
    refine ⟨e1, e2, src', fun zs => ?_⟩
    rw [List.cons_append, pathLoop_old (P1 := P) (c := (c : Int)) _ rfl hfk]
    exact e3 zs

theorem showsAll_split {f : Img} : ∀ (pre post : List CTree) (xs : List Int), FileShowsAll f xs (pre ++ post) → ∃ ys zs, xs = ys ++ zs ∧ FileShowsAll f ys pre ∧ FileShowsAll f zs post := by
  intro pre
  induction pre with
  | nil => intro post xs h; exact ⟨[], xs, rfl, by unfold FileShowsAll; trivial, h⟩
  | cons u pre ih =>
    intro post xs h
    cases xs with
    | nil => rw [List.cons_append] at h; unfold FileShowsAll at h; exact h.elim
    | cons x xs =>
      rw [List.cons_append] at h
      unfold FileShowsAll at h
      obtain ⟨ys, zs, rfl, h1, h2⟩ := ih post xs h.2
      exact ⟨x :: ys, zs, rfl, by unfold FileShowsAll; exact ⟨h.1, h1⟩, h2⟩

/-- the first elements of a path are there, the others are made -/
theorem path_added {E : Env} (hE : ∀ n, E.trunc n = true) {maxSize : Nat} (h1 : 0x4000 ≤ maxSize) (h2 : maxSize < 2147483648) {flt : CStr → List UInt8} (hflt : ∀ s, (flt s).length = 4) {isKey : Int → Bool} {f : Img}
    (hf : f.size + 64 < 2147483648) {whole : Bool} {P : Pool} {D : Doc} (h : Sess E maxSize P D) {r c : Nat} (hr : D.forest.Elem r) {pre post : List CTree} {m ct : CTree} {xs : List Int} {src : Int} (hl : D.Leads flt isKey r pre c)
    (hc : D.ClearPath flt isKey r (pre ++ m :: post)) (hno : D.childOf flt isKey c m.attrs = none) (hch : D.chain flt isKey whole m post = some ct) (hx : FileShowsAll f xs (pre ++ m :: post))
    (hfew : ∀ u ∈ pre ++ m :: post, FewKeys isKey u.attrs) (hlight : lightKids (m :: post)) (hbig : P.alloc + kidsRoom (m :: post) + 0x6000 ≤ P.mmapSize) :
    ∃ (Q : Pool) (D' : Doc) (o l N : Nat), (∀ fuel, N ≤ fuel → P.pathLoop E flt isKey f whole fuel xs src r false = .ok (Q, some (l : Int))) ∧ Sess E maxSize Q D' ∧ GrewBelow c D D' ∧ D.forest.Elem c ∧
      D'.forest.at' (.kids c) = D.forest.at' (.kids c) ++ [o] ∧ D'.forest.at' (.attrs c) = D.forest.at' (.attrs c) ∧ ¬ D.forest.Elem o ∧ D'.forest.Elem o ∧ D'.type o = NULL ∧ D'.val o = [] ∧ HasTree D D' o ct ∧
      D'.forest.Elem l ∧ sameKeys flt isKey m.attrs (D'.attrsOf o) = true ∧ D'.Leads flt isKey o post l ∧ D'.ClearPath flt isKey o post ∧
      ∀ as, D.takesAttrs flt (keysOf isKey as) ≠ none → D'.Clear flt isKey o as := by
  obtain ⟨els, V, fl, k⟩ := sess_keeps h1 h2 h
  obtain ⟨ys, zs, rfl, hy, hz⟩ := showsAll_split _ _ _ hx
  cases zs with
  | nil => unfold FileShowsAll at hz; exact hz.elim
  | cons x zs =>
    unfold FileShowsAll at hz
    have hfm := hfew m (by simp)
    have hcE : D.forest.Elem c := (k.lists.mem c).2 (path_prefix (E := E) (whole := whole) hflt hf k (Nat.lt_succ_self _) pre ys src r ((k.lists.mem r).1 hr) hl hc hy fun u hu => hfew u (List.mem_append_left _ hu)).1
    have hce := (k.lists.mem c).1 hcE
    obtain ⟨hnm, hsa⟩ := fileShows_attrs hz.1
    have hkr : kidsRoom (m :: post) = m.value.bytes.length + 80 + m.room + kidsRoom post := by rw [kidsRoom]
    obtain ⟨Q1, o, Q2, D2, q1, q2, q3, q4, q5, q6, q7, q8, q9, q10, q11, q12, q13, q14, q15, -⟩ := addTag_ok hE h1 h2 h hcE (i16_is16 hnm) (by omega)
    have hoc : c ≠ o := fun hcc => q7 (hcc ▸ hcE)
    have hal := q14.alloc
    have hmp := q14.map
    have hlm : attrsRoom m.attrs ≤ 16000 := by unfold lightKids at hlight; exact hlight.1
    obtain ⟨Q, D', l, N, r1, r2, r3, r4, r5, r6, r7, r8, r9⟩ := chain_ok hE h1 h2 hflt hf post m ct zs x o Q2 D2 q3 q8 q9 q10 q11 (by rw [chain_congr q4.syms q4.ready]; exact hch) hz.1 hz.2
      (fun v hv => hfew v (List.mem_append_right _ hv)) hlight (by omega) (by rw [hmp]; omega)
    have hc2 := (q4.elem c hcE).1
    refine ⟨Q, D', o, l, N + els.length + 1, fun fuel hfu => ?_, r2, grew_into q4 q7 r3, hcE, ?_, ?_, q7, (r3.elem o q8).1, (r3.elem o q8).2.2.2.1.trans q12, (r3.elem o q8).2.2.2.2.trans q13, ?_, r5, r6, r7, r8, fun as has => r9 as ?_⟩
    · obtain ⟨-, p2, src', p3⟩ := path_prefix (E := E) (whole := whole) hflt hf k (fuel := fuel) (by omega) pre ys src r ((k.lists.mem r).1 hr) hl hc hy fun u hu => hfew u (List.mem_append_left _ hu)
      rw [p3]
      have hfu' : els.length < fuel := by omega
      have hfk := findKeys_spec hflt isKey hf k hce hsa hfm.2 p2.1 (fuel := fuel) ⟨Nat.lt_of_le_of_lt (list_len k.lists _) hfu', fun c _ => Nat.lt_of_le_of_lt (list_len k.lists _) hfu'⟩
      rw [hno, Option.map_none] at hfk
      rw [pathLoop_new zs rfl hfk hnm q1 q2]
      exact r1 fuel (by omega)
    · rw [(r3.kids c hc2 hoc).1, q6]
    · rw [(r3.kids c hc2 hoc).2, q5]
    · exact hasTree_mono (D0 := D2) (D := D') (D' := D') (p := c) (fun e he => (q4.elem e he).1) ⟨fun _ _ _ => ⟨rfl, rfl⟩, fun _ he => ⟨he, rfl, rfl, rfl⟩⟩ hc2 ct o (r3.elem o q8).1 hoc.symm r4
    · rw [takesAttrs_congr q4.syms q4.ready]; exact has

/-! ### the path again -/

theorem attrsOf_kept {c : Nat} {D D' : Doc} (h : GrewBelow c D D') (ha : D'.forest.at' (.attrs c) = D.forest.at' (.attrs c)) {e : Nat} (he : D.forest.Elem e) : D'.forest.at' (.attrs e) = D.forest.at' (.attrs e) ∧ D'.attrsOf e = D.attrsOf e := by
  have hat : D'.forest.at' (.attrs e) = D.forest.at' (.attrs e) := by
    by_cases hc : e = c
    · subst hc; exact ha
    · exact (h.kids e he hc).2
  refine ⟨hat, ?_⟩
  unfold Doc.attrsOf
  rw [hat]
  refine List.map_congr_left fun a hm => ?_
  obtain ⟨-, -, e1, e2, e3⟩ := h.elem a ⟨_, hm⟩
  rw [e1, e2, e3]

theorem clear_kept {flt : CStr → List UInt8} {isKey : Int → Bool} {c : Nat} {D D' : Doc} (h : GrewBelow c D D') (ha : D'.forest.at' (.attrs c) = D.forest.at' (.attrs c)) {e : Nat} (he : D.forest.Elem e)
    {as : List (Int × Data)} (hc : D.Clear flt isKey e as) : D'.Clear flt isKey e as := by
  intro a hm hk
  rw [(attrsOf_kept h ha he).1] at hm
  obtain ⟨-, -, e1, e2, e3⟩ := h.elem a ⟨_, hm⟩
  rw [e1] at hk ⊢
  rw [e2, e3]
  exact hc a hm hk

theorem childOf_kept {flt : CStr → List UInt8} {isKey : Int → Bool} {c o : Nat} {D D' : Doc} (h : GrewBelow c D D') (ha : D'.forest.at' (.attrs c) = D.forest.at' (.attrs c))
    (hk : D'.forest.at' (.kids c) = D.forest.at' (.kids c) ++ [o]) {p : Nat} (hp : D.forest.Elem p) {as : List (Int × Data)} :
    (∀ q, D.childOf flt isKey p as = some q → D'.childOf flt isKey p as = some q) ∧ (p ≠ c → D'.childOf flt isKey p as = D.childOf flt isKey p as) ∧
    (D.childOf flt isKey c as = none → sameKeys flt isKey as (D'.attrsOf o) = true → D'.childOf flt isKey c as = some o) := by
  have hfind : ∀ (l : List Nat), (∀ x ∈ l, D.forest.Elem x) → (l.find? fun c => sameKeys flt isKey as (D'.attrsOf c)) = l.find? fun c => sameKeys flt isKey as (D.attrsOf c) := by
    intro l
    induction l with
    | nil => intro _; rfl
    | cons a l ih =>
      intro hl
      rw [List.find?_cons, List.find?_cons, (attrsOf_kept h ha (hl a (by simp))).2, ih fun x hx => hl x (List.mem_cons_of_mem _ hx)]
  have hel : ∀ q, ∀ x ∈ D.forest.at' (.kids q), D.forest.Elem x := fun q x hx => ⟨_, hx⟩
  refine ⟨fun q hq => ?_, fun hne => ?_, fun hno hs => ?_⟩
  · unfold Doc.childOf at hq ⊢
    by_cases hpc : p = c
    · subst hpc
      rw [hk, List.find?_append, hfind _ (hel _), hq]
      rfl
    · rw [(h.kids p hp hpc).1, hfind _ (hel _), hq]
  · unfold Doc.childOf
    rw [(h.kids p hp hne).1, hfind _ (hel _)]
  · unfold Doc.childOf at hno ⊢
    rw [hk, List.find?_append, hfind _ (hel _), hno, Option.none_or, List.find?_cons, hs]

theorem leads_kept {flt : CStr → List UInt8} {isKey : Int → Bool} {c o l : Nat} {D D' : Doc} (h : GrewBelow c D D') (ha : D'.forest.at' (.attrs c) = D.forest.at' (.attrs c))
    (hk : D'.forest.at' (.kids c) = D.forest.at' (.kids c) ++ [o]) {m : CTree} {post : List CTree} (hno : D.childOf flt isKey c m.attrs = none) (hs : sameKeys flt isKey m.attrs (D'.attrsOf o) = true)
    (hl : D'.Leads flt isKey o post l) (hcp : D'.ClearPath flt isKey o post) (hcl : ∀ as, D.takesAttrs flt (keysOf isKey as) ≠ none → D'.Clear flt isKey o as) (hm : D.takesAttrs flt (keysOf isKey m.attrs) ≠ none) :
    ∀ (pre : List CTree) (p : Nat), D.forest.Elem p → D.Leads flt isKey p pre c → D.ClearPath flt isKey p (pre ++ m :: post) → (∀ u ∈ pre, D.takesAttrs flt (keysOf isKey u.attrs) ≠ none) →
      D'.Leads flt isKey p (pre ++ m :: post) l ∧ D'.ClearPath flt isKey p (pre ++ m :: post) := by
  have hkid : ∀ (p : Nat) (u : CTree), D.forest.Elem p → (∀ e ∈ D.forest.at' (.kids p), D.Clear flt isKey e u.attrs) → D.takesAttrs flt (keysOf isKey u.attrs) ≠ none → ∀ e ∈ D'.forest.at' (.kids p), D'.Clear flt isKey e u.attrs := by
    intro p u hp hc hu e he
    by_cases hpc : p = c
    · subst hpc
      rw [hk] at he
      rcases List.mem_append.1 he with he | he
      · exact clear_kept h ha ⟨_, he⟩ (hc e he)
      · rw [List.mem_singleton.1 he]; exact hcl _ hu
    · rw [(h.kids p hp hpc).1] at he
      exact clear_kept h ha ⟨_, he⟩ (hc e he)
  intro pre
  induction pre with
  | nil =>
    intro p hp hle hc _
    have hle : p = c := hle
    subst hle
    have hco := (childOf_kept (as := m.attrs) h ha hk hp).2.2 hno hs
    exact ⟨⟨o, hco, hl⟩, hkid p m hp hc.1 hm, fun c' hc' => by rw [hco] at hc'; cases hc'; exact hcp⟩
  | cons u pre ih =>
    intro p hp hle hc hst
    obtain ⟨c1, d1, d2⟩ := hle
    have hco := (childOf_kept (as := u.attrs) h ha hk hp).1 c1 d1
    obtain ⟨i1, i2⟩ := ih c1 ⟨_, childOf_mem d1⟩ d2 (hc.2 c1 d1) fun v hv => hst v (List.mem_cons_of_mem _ hv)
    exact ⟨⟨c1, hco, i1⟩, hkid p u hp hc.1 (hst u (by simp)), fun c' hc' => by rw [hco] at hc'; cases hc'; exact i2⟩

/-! ### where a path begins -/

theorem start_elem {E : Env} {maxSize : Nat} (h1 : 0x4000 ≤ maxSize) (h2 : maxSize < 2147483648) {P : Pool} {D : Doc} (h : Sess E maxSize P D) {id : Int} {r : Nat} (hr : D.startFor id = some r) :
    D.root ≠ 0 ∧ D.forest.Elem D.root ∧ D.forest.Elem r := by
  unfold Doc.startFor at hr
  split at hr
  · cases hr
  · next h0 =>
    have := sess_root h1 h2 h h0
    refine ⟨h0, this, ?_⟩
    split at hr
    · exact ⟨_, List.mem_of_mem_head? hr⟩
    · cases hr; exact this

/-- the path goes on at the element at which it begins, if it is the right one -/
theorem copyPath_start {E : Env} {maxSize : Nat} (h1 : 0x4000 ≤ maxSize) (h2 : maxSize < 2147483648) {flt : CStr → List UInt8} {isKey : Int → Bool} {f : Img} {whole : Bool} {P : Pool} {D : Doc} (h : Sess E maxSize P D)
    {x : Int} {t : CTree} (hx : FileShows f x t) {r : Nat} (hr : D.startFor t.id = some r) (fuel : Nat) (xs : List Int) :
    P.copyPath E flt isKey f x whole fuel x xs = P.pathFrom E flt isKey f whole fuel x xs r := by
  obtain ⟨h0, hroot, hre⟩ := start_elem h1 h2 h hr
  obtain ⟨els, V, fl, k⟩ := sess_keeps h1 h2 h
  have hrm := (k.lists.mem _).1 hroot
  have hsz := k.sees.size.1
  obtain ⟨hnm, -⟩ := fileShows_attrs hx
  unfold Pool.copyPath
  rw [if_neg (by simp), if_neg (by rw [k.root]; exact h0), k.root, elemAt_spec k.sees hrm, Out.ok_bind, (k.elem _ hrm).eId hsz, Out.ok_bind, hnm, Out.ok_bind]
  unfold Doc.startFor at hr
  rw [if_neg h0] at hr
  split at hr
  · next ht =>
    rw [if_pos ht]
    unfold Pool.pathInside Pool.eChild
    rw [k.sees.get (k := 16) hrm (by unfold IsPtr; omega) ((D.root : Int) + 16) rfl, Out.ok_bind]
    have hh : V 16 D.root = _ := k.lists.head _ hrm 16 (Or.inl rfl)
    rw [show lst 16 D.root = .kids D.root from rfl] at hh
    have hrl := (k.lists.mem _).1 hre
    have hv : V 16 D.root = r := by
      rw [hh]
      cases hl : D.forest.at' (.kids D.root) with
      | nil => rw [hl] at hr; cases hr
      | cons a l => rw [hl] at hr; cases hr; rfl
    have := k.sees.lt hrl
    rw [hv, if_neg (by omega), elemAt_spec k.sees hrl, Out.ok_bind]
  · next ht =>
    rw [if_neg ht]
    cases hr
    rfl

theorem copyPath_begins {E : Env} {maxSize : Nat} (h1 : 0x4000 ≤ maxSize) (h2 : maxSize < 2147483648) {flt : CStr → List UInt8} (hflt : ∀ s, (flt s).length = 4) {isKey : Int → Bool} {f : Img} (hf : f.size + 64 < 2147483648)
    {whole : Bool} {P : Pool} {D : Doc} (h : Sess E maxSize P D) {x : Int} {t : CTree} (hx : FileShows f x t) {r : Nat} (hb : D.Begins flt isKey t r) (hfew : FewKeys isKey t.attrs) :
    ∃ N, ∀ fuel, N ≤ fuel → ∀ xs, P.copyPath E flt isKey f x whole fuel x xs = P.pathLoop E flt isKey f whole fuel xs x r false := by
  obtain ⟨-, -, hre⟩ := start_elem h1 h2 h hb.start
  obtain ⟨els, V, fl, k⟩ := sess_keeps h1 h2 h
  have hrm := (k.lists.mem _).1 hre
  obtain ⟨hnm, hsa⟩ := fileShows_attrs hx
  refine ⟨(D.forest.at' (.attrs r)).length + 1, fun fuel hfu xs => ?_⟩
  rw [copyPath_start h1 h2 h hx hb.start]
  unfold Pool.pathFrom
  rw [(k.elem _ hrm).eId k.sees.size.1, Out.ok_bind, hnm, Out.ok_bind, hb.id, if_neg (by simp), equalKeys_spec hflt isKey hf k hrm hsa hb.clear (by omega), Out.ok_bind, hb.same, decide_eq_true hfew.2]
  rfl

theorem begins_kept {flt : CStr → List UInt8} {isKey : Int → Bool} {c o : Nat} {D D' : Doc} (h : GrewBelow c D D') (ha : D'.forest.at' (.attrs c) = D.forest.at' (.attrs c))
    (hk : D'.forest.at' (.kids c) = D.forest.at' (.kids c) ++ [o]) {t : CTree} {r : Nat} (hroot : D.forest.Elem D.root) (hr : D.forest.Elem r) (hb : D.Begins flt isKey t r) : D'.Begins flt isKey t r := by
  refine ⟨?_, (h.elem r hr).2.2.1.trans hb.id, by rw [(attrsOf_kept h ha hr).2]; exact hb.same, clear_kept h ha hr hb.clear⟩
  have hs := hb.start
  unfold Doc.startFor at hs ⊢
  rw [h.root, (h.elem _ hroot).2.2.1]
  split
  · next h0 => rw [if_pos h0] at hs; cases hs
  · next h0 =>
    rw [if_neg h0] at hs
    split
    · next ht =>
      rw [if_pos ht] at hs
      by_cases hc : D.root = c
      · rw [hc] at hs ⊢
        rw [hk, List.head?_append, hs]
        rfl
      · rw [(h.kids _ hroot hc).1, hs]
    · next ht => rw [if_neg ht] at hs; exact hs

/-! ### a path in an empty document -/

theorem path_root {E : Env} (hE : ∀ n, E.trunc n = true) {maxSize : Nat} (h1 : 0x4000 ≤ maxSize) (h2 : maxSize < 2147483648) {flt : CStr → List UInt8} (hflt : ∀ s, (flt s).length = 4) {isKey : Int → Bool} {f : Img}
    (hf : f.size + 64 < 2147483648) {whole : Bool} {P : Pool} {D : Doc} (h : Sess E maxSize P D) (h0 : D.root = 0) {t ct : CTree} {us : List CTree} {x : Int} {xs : List Int} (hch : D.chain flt isKey whole t us = some ct)
    (hx : FileShowsAll f (x :: xs) (t :: us)) (hfew : ∀ u ∈ t :: us, FewKeys isKey u.attrs) (hlight : lightKids (t :: us)) (hbig : P.alloc + kidsRoom (t :: us) + 0x6000 ≤ P.mmapSize) :
    ∃ (Q : Pool) (D' : Doc) (o l N : Nat), (∀ fuel, N ≤ fuel → P.copyPath E flt isKey f x whole fuel x xs = .ok (Q, some (l : Int))) ∧ Sess E maxSize Q D' ∧ OnlyNew o D D' ∧ D'.root = o ∧ HasTree D D' o ct ∧
      D'.forest.Elem l ∧ (D'.startFor t.id = some o → D'.Begins flt isKey t o) ∧ D'.Leads flt isKey o us l ∧ D'.ClearPath flt isKey o us := by
  obtain ⟨els, V, fl, k⟩ := sess_keeps h1 h2 h
  unfold FileShowsAll at hx
  obtain ⟨hnm, hsa⟩ := fileShows_attrs hx.1
  have hkr : kidsRoom (t :: us) = t.value.bytes.length + 80 + t.room + kidsRoom us := by rw [kidsRoom]
  have hlm : attrsRoom t.attrs ≤ 16000 := by unfold lightKids at hlight; exact hlight.1
  obtain ⟨Q1, o, n, q1, q2, q3, q4, q5, q6⟩ := plainTag_ok hE h1 h2 h (i16_is16 hnm) (by omega)
  have hal := q5.alloc
  have hmp := q5.map
  obtain ⟨nb1, nb2⟩ := newborn k q4
  obtain ⟨els1, V1, fl1, k1⟩ := sess_keeps h1 h2 q2
  have hoE : (D.plus n o true t.id NULL []).forest.Elem o := ⟨.loose n, by rw [plus_at, if_pos rfl]; simp⟩
  have hom := (k1.lists.mem o).1 hoE
  have hrg := k1.sees.range o hom
  have hset : Q1.setRoot (some (o : Int)) = .ok { Q1 with root := o } := by
    unfold Pool.setRoot
    simp only
    rw [if_neg (by rw [k1.root]; exact fun hc => hc h0), k1.sees.offset hom, Out.ok_bind, if_pos (by omega)]
    rfl
  have hs2 := Sess.rooted q2 hoE hset
  rw [show (D.plus n o true t.id NULL []).root = D.root from rfl, if_pos h0] at hs2
  have hpE : ∀ e, D.forest.Elem e → (D.plus n o true t.id NULL []).forest.Elem e := fun e he => plus_elem q3 he
  obtain ⟨Q, D', l, N, r1, r2, r3, r4, r5, r6, r7, r8, r9⟩ := chain_ok hE h1 h2 hflt hf (whole := whole) (isKey := isKey) us t ct xs x o _ _ hs2 hoE (by show (D.plus n o true t.id NULL []).forest.at' _ = _; rw [plus_at, if_neg (by simp)]; exact nb1)
    (by show (D.plus n o true t.id NULL []).forest.at' _ = _; rw [plus_at, if_neg (by simp)]; exact nb2) (if_pos rfl) (by rw [chain_congr (D := D) (D' := { D.plus n o true t.id NULL [] with root := o }) rfl rfl]; exact hch) hx.1 hx.2 hfew hlight
    (by show Q1.alloc + _ ≤ Q1.limit; omega) (by show Q1.alloc + _ + _ + _ ≤ Q1.mmapSize; rw [hmp]; omega)
  have hkeep : ∀ e, D.forest.Elem e → e ≠ o := fun e he hc => q4 (hc ▸ he)
  have hnk : D.takesAttrs flt (keysOf isKey t.attrs) ≠ none := chain_keys us t ct hch
  refine ⟨Q, D', o, l, N, fun fuel hfu => ?_, r2, ⟨⟨q4, (r3.elem o hoE).1⟩, fun e he => ?_, r3.syms, r3.ready⟩, r3.root, ?_, r5, fun hst => ⟨hst, ?_, r6, r9 _ (by rw [takesAttrs_congr (D := D) (D' := { D.plus n o true t.id NULL [] with root := o }) rfl rfl]; exact hnk)⟩, r7, r8⟩
  · unfold Pool.copyPath
    rw [if_neg (by simp), if_pos (by rw [k.root]; exact h0), hnm, Out.ok_bind, q1, Out.ok_bind]
    simp only
    rw [hset, Out.ok_bind]
    exact r1 fuel hfu
  · obtain ⟨e1, -, e2, e3, e4⟩ := r3.elem e (hpE e he)
    obtain ⟨e5, e6⟩ := r3.kids e (hpE e he) (hkeep e he)
    have p1 : (D.plus n o true t.id NULL []).id e = D.id e := if_neg (hkeep e he)
    have p2 : (D.plus n o true t.id NULL []).type e = D.type e := if_neg (hkeep e he)
    have p3 : (D.plus n o true t.id NULL []).val e = D.val e := if_neg (hkeep e he)
    have p4 : (D.plus n o true t.id NULL []).forest.at' (.kids e) = D.forest.at' (.kids e) := by rw [plus_at, if_neg (by simp)]
    have p5 : (D.plus n o true t.id NULL []).forest.at' (.attrs e) = D.forest.at' (.attrs e) := by rw [plus_at, if_neg (by simp)]
    exact ⟨e1, e2.trans p1, e3.trans p2, e4.trans p3, e5.trans p4, e6.trans p5⟩
  · cases ct with
    | mk i v as ks =>
      unfold HasTree at r4 ⊢
      obtain ⟨g1, g2, g3⟩ := r4
      exact ⟨g1, attrsAre_mono (p := o) (D0 := { D.plus n o true t.id NULL [] with root := o }) (D := D') hpE ⟨fun _ _ _ => ⟨rfl, rfl⟩, fun _ he => ⟨he, rfl, rfl, rfl⟩⟩ _ _ g2,
        hasKids_mono (p := o) (D0 := { D.plus n o true t.id NULL [] with root := o }) (D := D') (D' := D') hpE ⟨fun _ _ _ => ⟨rfl, rfl⟩, fun _ he => ⟨he, rfl, rfl, rfl⟩⟩ hoE _ _ g3⟩
  · exact (r3.elem o hoE).2.2.1.trans (if_pos rfl)

/-! ### a path in an empty transaction -/

theorem path_inside {E : Env} (hE : ∀ n, E.trunc n = true) {maxSize : Nat} (h1 : 0x4000 ≤ maxSize) (h2 : maxSize < 2147483648) {flt : CStr → List UInt8} (hflt : ∀ s, (flt s).length = 4) {isKey : Int → Bool} {f : Img}
    (hf : f.size + 64 < 2147483648) {whole : Bool} {P : Pool} {D : Doc} (h : Sess E maxSize P D) (h0 : D.root ≠ 0) (hid : D.id D.root = -10) (hnk : D.forest.at' (.kids D.root) = []) {t ct : CTree} {us : List CTree} {x : Int}
    {xs : List Int} (htid : t.id ≠ -10) (hch : D.chain flt isKey whole t us = some ct) (hx : FileShowsAll f (x :: xs) (t :: us)) (hfew : ∀ u ∈ t :: us, FewKeys isKey u.attrs) (hlight : lightKids (t :: us))
    (hbig : P.alloc + kidsRoom (t :: us) + 0x6000 ≤ P.mmapSize) :
    ∃ (Q : Pool) (D' : Doc) (o l N : Nat), (∀ fuel, N ≤ fuel → P.copyPath E flt isKey f x whole fuel x xs = .ok (Q, some (l : Int))) ∧ Sess E maxSize Q D' ∧ GrewBelow D.root D D' ∧
      D'.forest.at' (.kids D.root) = [o] ∧ D'.forest.at' (.attrs D.root) = D.forest.at' (.attrs D.root) ∧ ¬ D.forest.Elem o ∧ D'.forest.Elem o ∧ HasTree D D' o ct ∧
      D'.forest.Elem l ∧ D'.Begins flt isKey t o ∧ D'.Leads flt isKey o us l ∧ D'.ClearPath flt isKey o us := by
  obtain ⟨els, V, fl, k⟩ := sess_keeps h1 h2 h
  have hcE := sess_root h1 h2 h h0
  have hrm := (k.lists.mem _).1 hcE
  unfold FileShowsAll at hx
  obtain ⟨hnm, hsa⟩ := fileShows_attrs hx.1
  have hkr : kidsRoom (t :: us) = t.value.bytes.length + 80 + t.room + kidsRoom us := by rw [kidsRoom]
  have hlm : attrsRoom t.attrs ≤ 16000 := by unfold lightKids at hlight; exact hlight.1
  obtain ⟨Q1, o, Q2, D2, q1, q2, q3, q4, q5, q6, q7, q8, q9, q10, q11, q12, q13, q14, q15, q16⟩ := addTag_ok hE h1 h2 h hcE (i16_is16 hnm) (by omega)
  obtain ⟨w1, w2⟩ := q16 hnk
  have hoc : D.root ≠ o := fun hcc => q7 (hcc ▸ hcE)
  have hal := q14.alloc
  have hmp := q14.map
  obtain ⟨els2, V2, fl2, k2⟩ := sess_keeps h1 h2 q3
  obtain ⟨Q, D', l, N, r1, r2, r3, r4, r5, r6, r7, r8, r9⟩ := chain_ok hE h1 h2 hflt hf us t ct xs x o Q2 D2 q3 q8 q9 q10 q11 (by rw [chain_congr q4.syms q4.ready]; exact hch) hx.1 hx.2
    hfew hlight (by omega) (by rw [hmp]; omega)
  have hc2 := (q4.elem _ hcE).1
  have hkids : D'.forest.at' (.kids D.root) = [o] := by rw [(r3.kids _ hc2 hoc).1, q6, hnk]; rfl
  have hroot : D'.root = D.root := r3.root.trans q4.root
  refine ⟨Q, D', o, l, N, fun fuel hfu => ?_, r2, grew_into q4 q7 r3, hkids, by rw [(r3.kids _ hc2 hoc).2, q5], q7, (r3.elem o q8).1, ?_, r5, ⟨?_, (r3.elem o q8).2.2.1.trans q11, r6, r9 _ ?_⟩, r7, r8⟩
  · unfold Pool.copyPath
    rw [if_neg (by simp), if_neg (by rw [k.root]; exact h0), k.root, elemAt_spec k.sees hrm, Out.ok_bind, (k.elem _ hrm).eId k.sees.size.1, Out.ok_bind, hnm, Out.ok_bind, if_pos ⟨hid, htid⟩]
    unfold Pool.pathInside Pool.eChild
    have hh : V 16 D.root = _ := k.lists.head _ hrm 16 (Or.inl rfl)
    rw [show lst 16 D.root = .kids D.root from rfl, hnk] at hh
    rw [k.sees.get (k := 16) hrm (by unfold IsPtr; omega) ((D.root : Int) + 16) rfl, Out.ok_bind, hh, if_pos (by rfl), hnm, Out.ok_bind, q1, Out.ok_bind]
    simp only
    rw [w1, Out.ok_bind, w2, Out.ok_bind, elemAt_spec k2.sees ((k2.lists.mem o).1 q8), Out.ok_bind]
    exact r1 fuel hfu
  · exact hasTree_mono (D0 := D2) (D := D') (D' := D') (p := D.root) (fun e he => (q4.elem e he).1) ⟨fun _ _ _ => ⟨rfl, rfl⟩, fun _ he => ⟨he, rfl, rfl, rfl⟩⟩ hc2 ct o (r3.elem o q8).1 hoc.symm r4
  · unfold Doc.startFor
    rw [hroot, if_neg h0, ((grew_into q4 q7 r3).elem _ hcE).2.2.1, if_pos ⟨hid, htid⟩, hkids]
    rfl
  · rw [takesAttrs_congr q4.syms q4.ready]; exact chain_keys us t ct hch

end BX
