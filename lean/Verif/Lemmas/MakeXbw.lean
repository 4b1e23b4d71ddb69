import Verif.Spec.MakeXbw
import Verif.Lemmas.CopyTree
import Verif.Lemmas.CrashStores
import Verif.Lemmas.SetStr
import Verif.Props.Symbols
/-
Making a writable document of a text source.
-/
namespace BX
open XBT Spec

/-! ### a new element whose fields are set one by one -/

theorem memPut_has {m : Mem} {a : Nat} {bs : List UInt8} (h : Has m a bs) : memPut m a bs = m := by
  have := memPut_front (bs := []) h
  rw [List.append_nil] at this
  rw [this]
  funext i
  unfold memPut
  rw [if_neg (by simp)]

theorem fields_mem (m : Mem) (o : Nat) (c : UInt8) {w : List UInt8} (hw : w.length = 4) :
    Has (memPut (memPut (memPut (memPut m (o + 7) [c]) (o + 12) w) (o + 8) w) o w) o w ∧ Has (memPut (memPut (memPut (memPut m (o + 7) [c]) (o + 12) w) (o + 8) w) o w) (o + 7) [c] ∧
    Has (memPut (memPut (memPut (memPut m (o + 7) [c]) (o + 12) w) (o + 8) w) o w) (o + 8) w ∧ Has (memPut (memPut (memPut (memPut m (o + 7) [c]) (o + 12) w) (o + 8) w) o w) (o + 12) w := by
  refine ⟨Has.self _ _ _, ?_, ?_, ?_⟩
  · exact (((Has.self _ _ _).frame (by simp)).frame (by simp)).frame (by simp; omega)
  · exact (Has.self _ _ _).frame (by omega)
  · exact ((Has.self _ _ _).frame (by omega)).frame (by omega)

theorem has_zeros {m : Mem} {a : Nat} (h : ∀ i, a ≤ i → i < a + 4 → m i = 0) : Has m a (le32 0) := by
  have e : le32 0 = [0, 0, 0, 0] := rfl
  rw [e]
  unfold Has
  apply List.ext_getElem
  · rw [slice_length]
  · intro i h1 h2
    simp only [List.length_cons, List.length_nil] at h2
    rw [slice_getElem, h _ (by omega) (by omega)]
    match i, h2 with
    | 0, _ => rfl
    | 1, _ => rfl
    | 2, _ => rfl
    | 3, _ => rfl

theorem newElement_fields {E : Env} {P Q : Pool} (hP : PoolOk P) {t : XBT} {size o : Nat} (h : P.newElement E t size = .ok (Q, some o)) :
    Has Q.mem o (le32 o) ∧ Has Q.mem (o + 7) [t.code] ∧ Has Q.mem (o + 8) (le32 o) ∧ Has Q.mem (o + 12) (le32 o) ∧ Has Q.mem (o + 16) (le32 0) ∧ Has Q.mem (o + 20) (le32 0) := by
  unfold Pool.newElement at h
  split at h
  · simp at h
  · obtain ⟨⟨Q1, r1⟩, h1, h⟩ := Out.bind_eq_ok h
    cases r1 with
    | none => simp at h
    | some o' =>
      simp only at h
      obtain ⟨P1, w1, h⟩ := Out.bind_eq_ok h
      obtain ⟨P2, w2, h⟩ := Out.bind_eq_ok h
      obtain ⟨P3, w3, h⟩ := Out.bind_eq_ok h
      obtain ⟨P4, w4, h⟩ := Out.bind_eq_ok h
      have l4 : ∀ v : Int, (le32 v).length = 4 := fun v => leN_length _ _
      have hz := allocGrow_zero hP h1
      have hg := ((allocGrow_spec hP h1).2 o' rfl).2.2.2
      obtain ⟨a1, e1, -, rfl⟩ := Pool.wr_ok w1
      obtain ⟨a2, e2, -, rfl⟩ := Pool.wr_ok w2
      obtain ⟨a3, e3, -, rfl⟩ := Pool.wr_ok w3
      obtain ⟨a4, e4, -, rfl⟩ := Pool.wr_ok w4
      obtain rfl : a1 = o' + 7 := by omega
      obtain rfl : a2 = o' + 12 := by omega
      obtain rfl : a3 = o' + 8 := by omega
      obtain rfl : a4 = o' := by omega
      obtain ⟨k1, k2, k3, k4⟩ := fields_mem Q1.mem a4 t.code (l4 a4)
      have k5 : ∀ i, a4 + 16 ≤ i → i < a4 + 24 → memPut (memPut (memPut (memPut Q1.mem (a4 + 7) [t.code]) (a4 + 12) (le32 a4)) (a4 + 8) (le32 a4)) a4 (le32 a4) i = 0 := by
        intro i i1 i2
        rw [memPut_frame _ _ _ _ (by rw [l4]; omega), memPut_frame _ _ _ _ (by rw [l4]; omega), memPut_frame _ _ _ _ (by rw [l4]; omega), memPut_frame _ _ _ _ (by simp; omega)]
        exact hz i (by omega) (by omega)
      have k6 := has_zeros (a := a4 + 16) fun i i1 i2 => k5 i i1 (by omega)
      have k7 := has_zeros (a := a4 + 20) fun i i1 i2 => k5 i (by omega) i2
      split at h
      · obtain ⟨P5, w5, h⟩ := Out.bind_eq_ok h
        obtain ⟨a5, e5, -, rfl⟩ := Pool.wr_ok w5
        obtain rfl : a5 = a4 + 24 := by omega
        cases h
        exact ⟨k1.frame (by simp), k2.frame (by simp), k3.frame (by simp), k4.frame (by simp), k6.frame (by simp), k7.frame (by simp)⟩
      · cases h
        exact ⟨k1, k2, k3, k4, k6, k7⟩

/-- setting identification and flags of a new element is what `init` does -/
theorem init_two {E : Env} {P Q : Pool} (hP : PoolOk P) {t : XBT} {size o : Nat} (h : P.newElement E t size = .ok (Q, some o)) {id : Int} {f : UInt8} {Q1 Q2 : Pool}
    (w1 : Q.wr (o + 4) (leN 2 (toU 16 id)) = .ok Q1) (w2 : Q1.wr (o + 6) [f] = .ok Q2) : Q.initElem o id t f = .ok Q2 := by
  obtain ⟨k1, k2, k3, k4, k5, k6⟩ := newElement_fields hP h
  obtain ⟨g, hg⟩ := newElement_spec hP h
  obtain ⟨-, -, -, -, hhi, -⟩ := hg o rfl
  have hle := g.ok.le
  have hli := g.ok.lim
  have l4 : ∀ v : Int, (le32 v).length = 4 := fun v => leN_length _ _
  have l2 : (leN 2 (toU 16 id)).length = 2 := leN_length _ _
  obtain ⟨a1, e1, -, rfl⟩ := Pool.wr_ok w1
  obtain ⟨a2, e2, -, rfl⟩ := Pool.wr_ok w2
  obtain rfl : a1 = o + 4 := by omega
  obtain rfl : a2 = o + 6 := by omega
  unfold Pool.initElem
  rw [Pool.wr_eq (a := o) (by simp [leN_length]; omega) _ rfl]
  simp only [Out.ok.injEq]
  congr 1
  rw [show ([f, t.code] : List UInt8) = [f] ++ [t.code] from rfl]
  rw [memPut_app, memPut_app, memPut_app, memPut_app, ← List.append_assoc, memPut_app, memPut_app, memPut_app]
  simp only [List.length_append, l4, l2, List.length_singleton]
  rw [memPut_has k1]
  rw [memPut_has (a := o + (4 + 2 + 1)) ((k2.frame (by rw [l2]; simp)).frame (by simp))]
  rw [memPut_has (a := o + (4 + 2 + 1 + 1)) ((k3.frame (by rw [l2, l4]; omega)).frame (by simp))]
  rw [memPut_has (a := o + (4 + 2 + 1 + 1 + 4)) ((k4.frame (by rw [l2, l4]; omega)).frame (by simp))]
  rw [memPut_has (a := o + (4 + 2 + 1 + 1 + 4 + 4)) ((k5.frame (by rw [l2, l4]; omega)).frame (by simp))]
  rw [memPut_has (a := o + (4 + 2 + 1 + 1 + 4 + 4 + 4)) ((k6.frame (by rw [l2, l4]; omega)).frame (by simp))]

/-! ### one value -/

/-- a converted text: where it is, what it is, and how much room it needs -/
theorem fromString_plain {flt : CStr → List UInt8} (hflt : ∀ s, (flt s).length = 4) {s : CStr} (hs : CText s) {t : XBT} {wp limit : Nat} {w : Wr} (h : fromString flt s t wp limit = .ok w)
    (ht : t ≠ HEX) (ht' : t ≠ SHA1) : textData flt s t = some ⟨t, w.bytes⟩ ∧ w.start = fsStart t wp ∧ Sized ⟨t, w.bytes⟩ ∧ w.scratch = 0 ∧
    ∃ n : Nat, sizeFromString (some s) t = .ok (n : Int) ∧ size2 t n = (w.bytes.length : Int) ∧ isVarsize t = false := by
  have step : ∀ {α : Type} {o : Out α} {g : Nat → α → Wr}, o.bind (fun v => .ok (g wp v)) = .ok w → ∃ v, o = .ok v ∧ w = g wp v := by
    intro α o g h
    obtain ⟨v, h1, h2⟩ := Out.obind_eq_ok h
    exact ⟨v, h1, (Out.ok.inj h2).symm⟩
  have l4 : ∀ v : Int, (le32 v).length = 4 := fun v => leN_length _ _
  have l8 : ∀ v : Int, (le64 v).length = 8 := fun v => leN_length _ _
  unfold textData
  unfold fromString at h ⊢
  cases t <;> simp only at h ⊢
  case NULL =>
    split at h
    · next h0 => cases h; exact ⟨by rw [if_pos h0], by simp [fsStart], by simp [Sized, is4, isINT32, is8, isVarsize, fixedSize], rfl, 0, rfl, rfl, rfl⟩
    · cases h
  case STRING =>
    cases h
    refine ⟨rfl, by simp [fsStart], ?_, rfl, s.length, rfl, by simp [size2, cBytes], rfl⟩
    unfold Sized
    rw [if_neg (by simp [is4, isINT32]), if_neg (by simp [is8]), if_pos rfl]
    exact ⟨_, cBytes_sized s hs, rfl⟩
  case INT32 => obtain ⟨v, h1, rfl⟩ := step (g := fun wp v => ⟨aa wp, le32 v, 0⟩) h; exact ⟨by rw [h1]; rfl, by simp [fsStart], .four rfl (l4 _), rfl, 4, rfl, by simp only [l4]; rfl, rfl⟩
  case INT32_DECI => obtain ⟨v, h1, rfl⟩ := step (g := fun wp v => ⟨aa wp, le32 v, 0⟩) h; exact ⟨by rw [h1]; rfl, by simp [fsStart], .four rfl (l4 _), rfl, 4, rfl, by simp only [l4]; rfl, rfl⟩
  case INT32_CENTI => obtain ⟨v, h1, rfl⟩ := step (g := fun wp v => ⟨aa wp, le32 v, 0⟩) h; exact ⟨by rw [h1]; rfl, by simp [fsStart], .four rfl (l4 _), rfl, 4, rfl, by simp only [l4]; rfl, rfl⟩
  case INT32_MILI => obtain ⟨v, h1, rfl⟩ := step (g := fun wp v => ⟨aa wp, le32 v, 0⟩) h; exact ⟨by rw [h1]; rfl, by simp [fsStart], .four rfl (l4 _), rfl, 4, rfl, by simp only [l4]; rfl, rfl⟩
  case INT32_MICRO => obtain ⟨v, h1, rfl⟩ := step (g := fun wp v => ⟨aa wp, le32 v, 0⟩) h; exact ⟨by rw [h1]; rfl, by simp [fsStart], .four rfl (l4 _), rfl, 4, rfl, by simp only [l4]; rfl, rfl⟩
  case INT32_NANO => obtain ⟨v, h1, rfl⟩ := step (g := fun wp v => ⟨aa wp, le32 v, 0⟩) h; exact ⟨by rw [h1]; rfl, by simp [fsStart], .four rfl (l4 _), rfl, 4, rfl, by simp only [l4]; rfl, rfl⟩
  case IPv4 => obtain ⟨v, h1, rfl⟩ := step (g := fun wp (v : Nat × CStr) => ⟨aa wp, leN 4 v.1, 0⟩) h; exact ⟨by rw [h1]; rfl, by simp [fsStart], .four rfl (leN_length _ _), rfl, 4, rfl, by simp only [leN_length]; rfl, rfl⟩
  case UNIX_TIME => obtain ⟨v, h1, rfl⟩ := step (g := fun wp (v : Nat × CStr) => ⟨aa wp, leN 4 v.1, 0⟩) h; exact ⟨by rw [h1]; rfl, by simp [fsStart], .four rfl (leN_length _ _), rfl, 4, rfl, by simp only [leN_length]; rfl, rfl⟩
  case INT64 => obtain ⟨v, h1, rfl⟩ := step (g := fun wp (v : Int × CStr) => ⟨aa8 wp, le64 v.1, 0⟩) h; exact ⟨by rw [h1]; rfl, by simp [fsStart], .eight rfl rfl (l8 _), rfl, 8, rfl, by simp only [l8]; rfl, rfl⟩
  case UINT64 => obtain ⟨v, h1, rfl⟩ := step (g := fun wp (v : Nat × CStr) => ⟨aa8 wp, leN 8 v.1, 0⟩) h; exact ⟨by rw [h1]; rfl, by simp [fsStart], .eight rfl rfl (leN_length _ _), rfl, 8, rfl, by simp only [leN_length]; rfl, rfl⟩
  case UNIX_TIME64_MSEC => obtain ⟨v, h1, rfl⟩ := step (g := fun wp v => ⟨aa wp, le64 v, 0⟩) h; exact ⟨by rw [h1]; rfl, by simp [fsStart], .eight rfl rfl (l8 _), rfl, 8, rfl, by simp only [l8]; rfl, rfl⟩
  case UNIX_DATE =>
    obtain ⟨v, h1, rfl⟩ := step (g := fun wp (v : Int × CStr) => ⟨aa wp, le32 v.1, 0⟩) h
    exact ⟨by rw [h1]; rfl, by simp [fsStart], by simp [Sized, is4, isINT32, is8, isVarsize], rfl, 4, rfl, by simp only [l4]; rfl, rfl⟩
  case FLOAT => cases h; exact ⟨rfl, by simp [fsStart], .four rfl (hflt s), rfl, 4, rfl, by simp only [hflt]; rfl, rfl⟩
  case GUID =>
    split at h
    · next h0 =>
      cases h
      have := C08_bounded s 16
      refine ⟨by rw [if_pos h0], by simp [fsStart], ?_, rfl, 16, rfl, by simp only [this.1]; rfl, rfl⟩
      simp [Sized, is4, isINT32, is8, isVarsize, fixedSize, this.1]
    · cases h
  case SHA1 => exact absurd rfl ht'
  case HEX => exact absurd rfl ht
  all_goals cases h

theorem fsStart_here {t : XBT} {o : Nat} (h4 : o % 4 = 0) (h8 : xalign t = 8 → o % 8 = 0) : fsStart t (o + 24) = o + 24 := by
  unfold fsStart
  split
  · rfl
  · split
    · next h => unfold aa8; have := h8 (by rcases h with rfl | rfl <;> rfl); omega
    · unfold aa; omega

/-- an element made of a text -/
theorem storeText_made {E : Env} {maxSize : Nat} (h1 : 0x4000 ≤ maxSize) (h2 : maxSize < 2147483648) {flt : CStr → List UInt8} (hflt : ∀ s, (flt s).length = 4) {P Q : Pool} {D : Doc}
    (hs : Sess E maxSize P D) {id : Int} (hid : Is16 id) {t : XBT} {v : SVal} (hv : CVal v) {b : Bool} {d : Data} (hd : storedAs flt t v = some d) {o k : Nat} (hk : D.forest.at' (.loose k) = [])
    (h : P.storeText E flt id t v.asText (tagFlag b) = .ok (Q, o)) : Sess E maxSize Q (D.plus k o b id d.type d.bytes) ∧ ¬ D.forest.Elem o ∧ DataGood d ∧ d.type = t := by
  unfold Pool.storeText at h
  obtain ⟨size, hsz, h⟩ := Out.bind_eq_ok h
  split at h
  · cases h
  next hneg =>
  obtain ⟨⟨P1, r1⟩, hsp, h⟩ := Out.bind_eq_ok h
  simp only at h
  split at h
  · cases h
  have hs1 := Sess.space hs hsp
  obtain ⟨els, V, fl, kp⟩ := sess_keeps h1 h2 hs1
  obtain ⟨⟨Q1, r2⟩, hne, h⟩ := Out.bind_eq_ok h
  cases r2 with
  | none => cases h
  | some o' =>
    simp only at h
    obtain ⟨Q2, w1, h⟩ := Out.bind_eq_ok h
    obtain ⟨Q3, w2, h⟩ := Out.bind_eq_ok h
    have hini := init_two kp.sees.ok hne w1 w2
    obtain ⟨g, hg⟩ := newElement_spec kp.sees.ok hne
    obtain ⟨-, hlo, ho4, ho8, hhi, -⟩ := hg o' rfl
    have hle := g.ok.le
    have hli := g.ok.lim
    have hmap := g.ok.map
    have hsmall := kp.sees.small
    have hmm := g.map
    have fin : ∀ (n : Nat) (d : Data) (Q : Pool), size = n → d.type = t → Sized d → t ≠ UNIX_DATE → size2 t n = (d.bytes.length : Int) → isVarsize t = false → Q3.wr (o' + 24) d.bytes = .ok Q →
        Sess E maxSize Q (D.plus k o' b id d.type d.bytes) ∧ ¬ D.forest.Elem o' ∧ DataGood d ∧ d.type = t := by
      rintro n d Q rfl rfl hz hdt h5 h6 hw
      have hf : sizeField d.type 0 = [] := by unfold sizeField; rw [if_neg (by rw [h6]; simp)]
      have hf' : ∀ x, sizeField d.type x = [] := fun x => by unfold sizeField; rw [if_neg (by rw [h6]; simp)]
      have hmk : P1.make E id d.type n (tagFlag b) (sizeField d.type 0).length d.bytes = .ok (Q, some o') := by
        unfold Pool.make
        rw [Int.toNat_natCast] at hne
        rw [hne]
        simp only [Out.ok_bind]
        rw [hini, Out.ok_bind, hf]
        simp only [List.length_nil, Int.natCast_zero, Int.add_zero]
        rw [hw]
        rfl
      have := Sess.made (b := b) (k := k) hs1 hid (by rw [hf, h5]; simp) hmk hk
      rw [hf', List.nil_append] at this
      rw [Int.toNat_natCast, h5] at hhi
      exact ⟨this, fresh_elem kp hlo, sized_good hz hdt (by omega), rfl⟩
    cases v with
    | none =>
      simp only [storedAs] at hd
      simp only [SVal.asText] at h hsz
      split at h
      · next ht =>
        rw [if_pos ht] at hd
        cases hd
        cases h
        subst ht
        cases hsz
        refine fin 0 ⟨NULL, []⟩ Q rfl rfl .null (by decide) rfl rfl ?_
        obtain ⟨-, -, hin, -⟩ := Pool.wr_ok w2
        have e : memPut Q.mem (o + 24) [] = Q.mem := by funext i; unfold memPut; rw [if_neg (by simp)]
        have hfs : Q.fileSize = Q1.fileSize := by
          obtain ⟨-, -, -, rfl⟩ := Pool.wr_ok w2
          obtain ⟨-, -, -, rfl⟩ := Pool.wr_ok w1
          rfl
        rw [Pool.wr_eq (a := o + 24) (by simp only [List.length_nil]; omega) _ (by omega)]
        simp only [e]
      · cases h
    | text s =>
      simp only [storedAs] at hd
      simp only [SVal.asText] at h hsz
      split at hd
      · cases hd
      · next hn =>
        obtain ⟨w, hw, h⟩ := Out.bind_eq_ok h
        obtain ⟨Q4, w3, h⟩ := Out.bind_eq_ok h
        cases h
        obtain ⟨g1, g2, g3, g4, n, g5, g6, g7⟩ := fromString_plain hflt hv hw (fun hc => hn (Or.inl hc)) (fun hc => hn (Or.inr (Or.inl hc)))
        rw [g1] at hd
        cases hd
        rw [g5] at hsz
        cases hsz
        rw [g4, g2, fsStart_here ho4 ho8] at w3
        simp only [List.replicate_zero, List.append_nil] at w3
        exact fin n ⟨t, w.bytes⟩ Q rfl rfl g3 (fun hc => hn (Or.inr (Or.inr hc))) g6 g7 (by rw [← w3]; rfl)
    | bin _ _ => cases hd

/-! ### symbols -/

theorem symbolIn_get : ∀ {t : SymTab} {name : BStr} {i : Nat} {ty : XBT}, symbolIn t name = some (i, ty) → t[i]? = some (name, ty)
  | [], _, _, _, h => by cases h
  | s :: t, name, i, ty, h => by
    unfold symbolIn at h
    split at h
    · next hc => cases h; subst hc; rfl
    · simp only [Option.map_eq_some_iff] at h
      obtain ⟨⟨j, ty'⟩, hj, h⟩ := h
      cases h
      rw [List.getElem?_cons_succ]
      exact symbolIn_get hj

theorem symbol_find {t : SymTab} (hg : t.Good) {name : BStr} (hn : NoNul name) (he : name ≠ b8 "et-tecera") {i : Nat} {ty : XBT} (h : symbolIn t name = some (i, ty)) :
    t.find (some name) = (i : Int) ∧ t.type i = ty ∧ Is16 i := by
  have hi := symbolIn_get h
  have hlt := (List.getElem?_eq_some_iff.mp hi).1
  have hmax := hg.max
  refine ⟨(hg.find_iff hn he i).2 (by unfold SymTab.names; rw [List.getElem?_map, hi]; rfl), ?_, ?_⟩
  · unfold SymTab.type; rw [List.getD_eq_getElem?_getD, hi]; rfl
  · unfold MAX_SYMBOL_COUNT at hmax; unfold Is16; omega

/-! ### attributes, elements and children -/

theorem storeParams_ok {E : Env} {maxSize : Nat} (h1 : 0x4000 ≤ maxSize) (h2 : maxSize < 2147483648) {c : Ctx} (hflt : ∀ s, (c.flt s).length = 4) (hg : c.params.Good) {p : Nat} :
    ∀ (as : List (BStr × SVal)) (as' : List (Int × Data)) (P Q : Pool) (D : Doc), Sess E maxSize P D → D.forest.Elem p → (∀ a ∈ as, NoNul a.1) → (∀ a ∈ as, CVal a.2) →
      attrsStored c.flt c.params as = some as' → Pool.storeParams E c p as P = .ok Q →
      ∃ D' l, Sess E maxSize Q D' ∧ GrewBelow p D D' ∧ D'.forest.at' (.kids p) = D.forest.at' (.kids p) ∧ D'.forest.at' (.attrs p) = D.forest.at' (.attrs p) ++ l ∧ AttrsAre D D' l as'
  | [], as', P, Q, D, hs, hp, _, _, ha, h => by
    cases ha
    unfold Pool.storeParams at h
    cases h
    exact ⟨D, [], hs, grew_refl p D, rfl, (List.append_nil _).symm, trivial⟩
  | (name, v) :: as, as', P, Q, D, hs, hp, hn, hv, ha, h => by
    unfold attrsStored at ha
    simp only [Option.bind_eq_some_iff, Option.map_eq_some_iff] at ha
    obtain ⟨x, hx, xs, hxs, rfl⟩ := ha
    unfold attrStored at hx
    simp only at hx
    split at hx
    · cases hx
    next hne =>
    simp only [Option.bind_eq_some_iff, Option.map_eq_some_iff] at hx
    obtain ⟨⟨i, ty⟩, hi, d, hd, rfl⟩ := hx
    simp only at hd
    obtain ⟨f1, f2, f3⟩ := symbol_find hg (hn (name, v) (by simp)) hne hi
    have hstep : ∃ P1 o, P.storeText E c.flt i ty v.asText (tagFlag false) = .ok (P1, o) ∧ ∃ P2, P1.add p (some (o : Int)) = .ok P2 ∧ Pool.storeParams E c p as P2 = .ok Q := by
      unfold Pool.storeParams at h
      simp only at h
      cases v with
      | bin _ _ => cases hd
      | none =>
        simp only at h
        rw [f1, if_neg (by omega), Int.toNat_natCast, f2] at h
        obtain ⟨⟨P1, o⟩, a1, h⟩ := Out.bind_eq_ok h
        obtain ⟨P2, a2, h⟩ := Out.bind_eq_ok h
        exact ⟨P1, o, a1, P2, a2, h⟩
      | text s =>
        simp only at h
        rw [f1, if_neg (by omega), Int.toNat_natCast, f2] at h
        obtain ⟨⟨P1, o⟩, a1, h⟩ := Out.bind_eq_ok h
        obtain ⟨P2, a2, h⟩ := Out.bind_eq_ok h
        exact ⟨P1, o, a1, P2, a2, h⟩
    obtain ⟨P1, o, q1, P2, q2, q3⟩ := hstep
    obtain ⟨N, hN⟩ := sess_loose hs
    have hk := hN N (Nat.le_refl _)
    obtain ⟨m1, m2, m3, -⟩ := storeText_made h1 h2 hflt hs f3 (hv (name, v) (by simp)) hd hk q1
    have hs2 := plus_add m1 hk hp q2
    have hgr := withAttr_grew (p := p) (id := (i : Int)) (t := d.type) (v := d.bytes) m2
    obtain ⟨D', l, r2, r3, r4, r5, r6⟩ := storeParams_ok h1 h2 hflt hg as xs P2 Q _ hs2 (hgr.elem p hp).1 (fun a ha => hn a (by simp [ha])) (fun a ha => hv a (by simp [ha])) hxs q3
    have hoE : (D.withAttr p o i d.type d.bytes).forest.Elem o := ⟨.attrs p, by
      show o ∈ if _ then _ else _
      rw [if_pos rfl]; simp⟩
    obtain ⟨e1, -, e2, e3, e4⟩ := r3.elem o hoE
    refine ⟨D', o :: l, r2, grew_trans hgr r3, ?_, ?_, ?_⟩
    · rw [r4, withAttr_at, if_neg (by simp)]
    · rw [r5, show (D.withAttr p o i d.type d.bytes).forest.at' (.attrs p) = D.forest.at' (.attrs p) ++ [o] from if_pos rfl]; simp
    · refine ⟨m2, e1, ?_, ?_, ?_, m3, ?_⟩
      · rw [e2]; exact if_pos rfl
      · rw [e3]; exact if_pos rfl
      · rw [e4]; exact if_pos rfl
      · exact attrsAre_mono (p := p) (D := D') (fun e he => (hgr.elem e he).1) ⟨fun _ _ _ => ⟨rfl, rfl⟩, fun _ he => ⟨he, rfl, rfl, rfl⟩⟩ _ _ r6

mutual
theorem storeXbw_ok {E : Env} {maxSize : Nat} (h1 : 0x4000 ≤ maxSize) (h2 : maxSize < 2147483648) {c : Ctx} (hflt : ∀ s, (c.flt s).length = 4) (ht : c.tags.Good) (hg : c.params.Good) :
    ∀ (e : Elem) (t : CTree) (P Q : Pool) (D : Doc) (r : Option Nat), Sess E maxSize P D → NamesIn NoNul NoNul e → CTexts e → treeStored c.flt c.tags c.params e = some t → storeXbw E c e P = .ok (Q, r) →
      ∃ o k D2, r = some o ∧ D.forest.at' (.loose k) = [] ∧ ¬ D.forest.Elem o ∧ Sess E maxSize Q D2 ∧ GrewBelow o (D.plus k o true t.id t.value.type t.value.bytes) D2 ∧
        HasTree (D.plus k o true t.id t.value.type t.value.bytes) D2 o t ∧ DataGood t.value
  | .mk name v as ks, t, P, Q, D, r, hs, hn, hc, htr, h => by
    unfold NamesIn at hn
    obtain ⟨n1, n2, n3⟩ := hn
    unfold CTexts at hc
    obtain ⟨c1, c2, c3⟩ := hc
    unfold treeStored at htr
    split at htr
    · cases htr
    next hne =>
    simp only [Option.bind_eq_some_iff, Option.map_eq_some_iff] at htr
    obtain ⟨⟨i, ty⟩, hi, d, hd, as', has, ks', hks, rfl⟩ := htr
    simp only at hd
    obtain ⟨f1, f2, f3⟩ := symbol_find ht n1 hne hi
    have hstep : ∃ P1 o, P.storeText E c.flt i ty v.asText (tagFlag true) = .ok (P1, o) ∧ ∃ P2, Pool.storeParams E c o as P1 = .ok P2 ∧ storeXbwAll E c o ks P2 = .ok Q ∧ r = some o := by
      unfold storeXbw at h
      simp only at h
      rw [f1, if_neg (by omega), Int.toNat_natCast, f2] at h
      cases v with
      | bin _ _ => cases hd
      | none =>
        simp only at h
        obtain ⟨⟨P1, o⟩, a1, h⟩ := Out.bind_eq_ok h
        obtain ⟨P2, a2, h⟩ := Out.bind_eq_ok h
        obtain ⟨P3, a3, h⟩ := Out.bind_eq_ok h
        cases h
        exact ⟨P1, o, a1, P2, a2, a3, rfl⟩
      | text s =>
        simp only at h
        obtain ⟨⟨P1, o⟩, a1, h⟩ := Out.bind_eq_ok h
        obtain ⟨P2, a2, h⟩ := Out.bind_eq_ok h
        obtain ⟨P3, a3, h⟩ := Out.bind_eq_ok h
        cases h
        exact ⟨P1, o, a1, P2, a2, a3, rfl⟩
    obtain ⟨P1, o, q1, P2, q2, q3, rfl⟩ := hstep
    obtain ⟨N, hN⟩ := sess_loose hs
    have hk := hN N (Nat.le_refl _)
    obtain ⟨els, V, fl, kp⟩ := sess_keeps h1 h2 hs
    obtain ⟨m1, m2, m3, -⟩ := storeText_made h1 h2 hflt hs f3 c1 hd hk q1
    obtain ⟨nb1, nb2⟩ := newborn kp m2
    have hoE : (D.plus N o true i d.type d.bytes).forest.Elem o := ⟨.loose N, by rw [plus_at, if_pos rfl]; simp⟩
    obtain ⟨D1, l1, a2, a3, a4, a5, a6⟩ := storeParams_ok h1 h2 hflt hg as as' P1 P2 _ m1 hoE n2 c2 has q2
    obtain ⟨D2, l2, b2, b3, b4, b5, b6⟩ := storeXbwAll_ok h1 h2 hflt ht hg ks ks' o P2 Q D1 a2 (a3.elem o hoE).1 n3 c3 hks q3
    refine ⟨o, N, D2, rfl, hk, m2, b2, grew_trans a3 b3, ?_, m3⟩
    show HasTree (D.plus N o true i d.type d.bytes) D2 o _
    unfold HasTree
    refine ⟨?_, ?_, ?_⟩
    · rw [(b3.elem o (a3.elem o hoE).1).2.2.1, (a3.elem o hoE).2.2.1]; exact if_pos rfl
    · rw [b4, a5, plus_at, if_neg (by simp), nb2, List.nil_append]
      exact attrsAre_mono (fun _ h => h) b3.below _ _ a6
    · rw [b5, a4, plus_at, if_neg (by simp), nb1, List.nil_append]
      exact hasKids_mono (D := D2) (p := o) (fun e he => (a3.elem e he).1) ⟨fun _ _ _ => ⟨rfl, rfl⟩, fun _ he => ⟨he, rfl, rfl, rfl⟩⟩ (a3.elem o hoE).1 _ _ b6
theorem storeXbwAll_ok {E : Env} {maxSize : Nat} (h1 : 0x4000 ≤ maxSize) (h2 : maxSize < 2147483648) {c : Ctx} (hflt : ∀ s, (c.flt s).length = 4) (ht : c.tags.Good) (hg : c.params.Good) :
    ∀ (es : List Elem) (ts : List CTree) (p : Nat) (P Q : Pool) (D : Doc), Sess E maxSize P D → D.forest.Elem p → NamesInAll NoNul NoNul es → CTextsAll es →
      treesStored c.flt c.tags c.params es = some ts → storeXbwAll E c p es P = .ok Q →
      ∃ D' l, Sess E maxSize Q D' ∧ GrewBelow p D D' ∧ D'.forest.at' (.attrs p) = D.forest.at' (.attrs p) ∧ D'.forest.at' (.kids p) = D.forest.at' (.kids p) ++ l ∧ HasKids D D' l ts
  | [], ts, p, P, Q, D, hs, hp, _, _, htr, h => by
    unfold treesStored at htr
    cases htr
    unfold storeXbwAll at h
    cases h
    refine ⟨D, [], hs, grew_refl p D, rfl, (List.append_nil _).symm, ?_⟩
    unfold HasKids; trivial
  | e :: es, ts, p, P, Q, D, hs, hp, hn, hc, htr, h => by
    unfold NamesInAll at hn
    unfold CTextsAll at hc
    unfold treesStored at htr
    simp only [Option.bind_eq_some_iff, Option.map_eq_some_iff] at htr
    obtain ⟨t, ht', ts', hts, rfl⟩ := htr
    unfold storeXbwAll at h
    obtain ⟨⟨Q1, r⟩, x1, h⟩ := Out.bind_eq_ok h
    obtain ⟨o, n, D2, rfl, q3, q4, r2, r3, r4, q5⟩ := storeXbw_ok h1 h2 hflt ht hg e t P Q1 D r hs hn.1 hc.1 ht' x1
    simp only at h
    obtain ⟨Q2, x2, h⟩ := Out.bind_eq_ok h
    obtain ⟨Q3, D3, w1, w2, w3, w4, w5, w6, w7, w8, w9, w10⟩ := adopt_ok h1 h2 q3 q4 hp r3 r2
    rw [w1] at x2
    cases x2
    obtain ⟨D', l, z2, z3, z4, z5, z6⟩ := storeXbwAll_ok h1 h2 hflt ht hg es ts' p Q2 Q D3 w2 (w4.elem p hp).1 hn.2 hc.2 hts h
    refine ⟨D', o :: l, z2, grew_trans w4 z3, z4.trans w5, by rw [z5, w6]; simp, ?_⟩
    unfold HasKids
    obtain ⟨e1, -, e2, e3, e4⟩ := z3.elem o w8
    have hpo : o ≠ p := fun hc => q4 (hc ▸ hp)
    have hoD1 : (D.plus n o true t.id t.value.type t.value.bytes).forest.Elem o := ⟨.loose n, by rw [plus_at, if_pos rfl]; simp⟩
    have t1 := hasTree_mono (D0' := D) (fun e he => plus_elem q3 he) w7 (plus_elem q3 hp) t o (r3.elem o hoD1).1 hpo r4
    have t2 := hasTree_mono (D0' := D) (fun _ he => he) z3.below hp t o w8 hpo t1
    exact ⟨q4, e1, by rw [e3, w9], by rw [e4, w10], q5, t2, hasKids_mono (D := D') (p := p) (fun e he => (w4.elem e he).1) ⟨fun _ _ _ => ⟨rfl, rfl⟩, fun _ he => ⟨he, rfl, rfl, rfl⟩⟩ (w4.elem p hp).1 _ _ z6⟩
end

end BX
