import Verif.Lemmas.Store
namespace BX
open XBT Spec

/-! ### the write pointer only grows -/

theorem fromString_start {flt : CStr → List UInt8} {s : CStr} {t : XBT} {wp limit : Nat} {w : Wr} (h : fromString flt s t wp limit = .ok w) : wp ≤ w.start := by
  have step : ∀ {α : Type} {o : Out α} {g : α → Wr}, o.bind (fun v => .ok (g v)) = .ok w → ∃ v, w = g v := by
    intro α o g h
    obtain ⟨v, h1, h2⟩ := Out.obind_eq_ok h
    exact ⟨v, (Out.ok.inj h2).symm⟩
  have h4 := aa_ge wp
  have h8 := aa8_ge wp
  unfold fromString at h
  cases t <;> simp only at h
  case NULL => split at h <;> cases h; exact Nat.le_refl _
  case GUID => split at h <;> cases h; exact h4
  case SHA1 => split at h <;> cases h; exact h4
  case HEX => split at h <;> cases h; exact h4
  case STRING => cases h; exact Nat.le_refl _
  case FLOAT => cases h; exact h4
  case INT64 => obtain ⟨v, rfl⟩ := step h; exact h8
  case UINT64 => obtain ⟨v, rfl⟩ := step h; exact h8
  all_goals first | cases h | (obtain ⟨v, rfl⟩ := step h; exact h4)

theorem writeValue_mono {c : Ctx} {m : Mem} {va : Nat} {v : SVal} {m' : Mem} {wp' : Nat} (h : writeValue c m va v = .ok (m', wp')) (hok : NodeOk v) :
    va < wp' := by
  cases v with
  | none =>
    obtain ⟨m1, hm1, h⟩ := Out.bind_eq_ok h
    simp only [Out.pure_eq, Out.ok.injEq, Prod.mk.injEq] at h
    omega
  | text s =>
    unfold writeValue at h
    simp only at h
    obtain ⟨m1, hm1, h⟩ := Out.bind_eq_ok h
    obtain ⟨w, hw, h⟩ := Out.bind_eq_ok h
    obtain ⟨m2, hm2, h⟩ := Out.bind_eq_ok h
    simp only [Out.pure_eq, Out.ok.injEq, Prod.mk.injEq] at h
    have := fromString_start hw
    omega
  | bin t src =>
    unfold writeValue at h
    obtain ⟨k1, k2, k3, k4, k5⟩ := hok
    by_cases h0 : t = NULL
    · simp only [if_pos h0] at h
      obtain ⟨m1, hm1, h⟩ := Out.bind_eq_ok h
      simp only [Out.pure_eq, Out.ok.injEq, Prod.mk.injEq] at h
      omega
    · simp only [if_neg h0] at h
      obtain ⟨m1, hm1, h⟩ := Out.bind_eq_ok h
      obtain ⟨tail, -, c2, -, -, -⟩ := copyTo_spec h h0 k1 k2 k3 k4 k5 rfl
      have hge := alignN_ge t (va + 1)
      omega

theorem writeParam_mono {c : Ctx} {x pd : Nat} {p : BStr × SVal} {m : Mem} {wp : Nat} {m' : Mem} {wp' : Nat} {pt : XBT}
    (h : writeParam c x pd p m wp = .ok (m', wp')) (hok : AttrOk pt p.2) : wp ≤ wp' := by
  obtain ⟨name, v⟩ := p
  simp only at hok
  unfold writeParam at h
  simp only at h
  obtain ⟨m1, hm1, h⟩ := Out.bind_eq_ok h
  have null : ∀ {m : Mem}, (do
        let m ← put c.limit m (pd + 2) [NULL.code]
        let m ← put c.limit m (pd + 4) (le32 0)
        return (m, wp) : Out (Mem × Nat)) = .ok (m', wp') → wp ≤ wp' := by
    intro m h
    obtain ⟨m2, hm2, h⟩ := Out.bind_eq_ok h
    obtain ⟨m3, hm3, h⟩ := Out.bind_eq_ok h
    simp only [Out.pure_eq, Out.ok.injEq, Prod.mk.injEq] at h
    omega
  have str : ∀ {s : CStr} {m : Mem}, writeParamStr c x pd s m wp = .ok (m', wp') → wp ≤ wp' := by
    intro s m h
    unfold writeParamStr at h
    obtain ⟨m2, hm2, h⟩ := Out.bind_eq_ok h
    obtain ⟨m3, hm3, h⟩ := Out.bind_eq_ok h
    obtain ⟨m4, hm4, h⟩ := Out.bind_eq_ok h
    simp only [Out.pure_eq, Out.ok.injEq, Prod.mk.injEq] at h
    omega
  cases v with
  | none => exact null h
  | text v =>
    simp only at h
    split at h
    · exact null h
    · generalize detect2 v _ = t at h
      split at h
      · split at h
        · obtain ⟨m2, hm2, h⟩ := Out.bind_eq_ok h
          obtain ⟨m3, hm3, h⟩ := Out.bind_eq_ok h
          simp only [Out.pure_eq, Out.ok.injEq, Prod.mk.injEq] at h
          omega
        · exact str h
        · cases h
      · exact str h
  | bin t src =>
    obtain ⟨k1, k2, k3, k4, k5, k6, k7⟩ := hok
    simp only at h
    split at h
    · exact null h
    · next h0 =>
      have outside : ∀ {m : Mem} {size}, size = binSize t src → (do
          let m ← put c.limit m (pd + 2) [t.code]
          let m ← put c.limit m (pd + 4) (le32 (((if xalign t = 4 then aa wp else if xalign t = 8 then aa8 wp else wp : Nat) : Int) - x))
          copyTo c.limit m src t size (if xalign t = 4 then aa wp else if xalign t = 8 then aa8 wp else wp) : Out (Mem × Nat)) = .ok (m', wp') → wp ≤ wp' := by
        intro m size hsz h
        obtain ⟨m2, hm2, h⟩ := Out.bind_eq_ok h
        obtain ⟨m3, hm3, h⟩ := Out.bind_eq_ok h
        obtain ⟨tail, -, c2, -, -, -⟩ := copyTo_spec h h0 k1 k2 k3 k4 k7 hsz
        have e1 : (if xalign t = 4 then aa wp else if xalign t = 8 then aa8 wp else wp) = alignN t wp := rfl
        rw [e1] at c2
        have hge := alignN_ge t wp
        have hge := alignN_ge t (alignN t wp)
        omega
      split at h
      · next hv =>
        refine outside ?_ h
        revert hv k4
        cases t <;> simp [isVarsize, binSize]
      · next hv =>
        have hbs : binSize t src = 0 := by
          revert hv k5
          cases t <;> simp [isVarsize, binSize]
        split at h
        · split at h
          · obtain ⟨m2, hm2, h⟩ := Out.bind_eq_ok h
            simp only [Out.pure_eq, Out.ok.injEq, Prod.mk.injEq] at h
            omega
          · exact outside hbs.symm h
          · cases h
        · exact outside hbs.symm h

theorem writeParams_mono {c : Ctx} {x : Nat} {ps : List (BStr × SVal)} {pd : Nat} {m : Mem} {wp : Nat} {m' : Mem} {wp' : Nat} {pt : BStr → XBT}
    (h : writeParams c x ps pd m wp = .ok (m', wp')) (hok : ∀ p ∈ ps, AttrOk (pt p.1) p.2) : wp ≤ wp' := by
  induction ps generalizing pd m wp with
  | nil => cases h; exact Nat.le_refl _
  | cons p ps ih =>
    unfold writeParams at h
    obtain ⟨⟨m1, w1⟩, h1, h⟩ := Out.bind_eq_ok h
    have a := writeParam_mono h1 (hok p (by simp))
    have b := ih h (fun q hq => hok q (by simp [hq]))
    omega

mutual
theorem writeNode_mono {c : Ctx} {pt : BStr → XBT} : ∀ (e : Elem) {m : Mem} {wp : Nat} {m' : Mem} {wp' x : Nat},
    writeNode c e m wp = .ok (m', wp', x) → TreeOk pt e → x = aa wp ∧ x + 12 < wp'
  | .mk name value params children, m, wp, m', wp', x, h, hok => by
    unfold TreeOk at hok
    unfold writeNode at h
    simp only at h
    split at h
    · cases h
    · obtain ⟨m1, hm1, h⟩ := Out.bind_eq_ok h
      obtain ⟨⟨m2, w2⟩, hm2, h⟩ := Out.bind_eq_ok h
      obtain ⟨⟨m3, w3⟩, hm3, h⟩ := Out.bind_eq_ok h
      obtain ⟨⟨m4, w4⟩, hm4, h⟩ := Out.bind_eq_ok h
      obtain ⟨m5, hm5, h⟩ := Out.bind_eq_ok h
      simp only [Out.pure_eq, Out.ok.injEq, Prod.mk.injEq] at h
      obtain ⟨-, rfl, rfl⟩ := h
      have a := writeValue_mono hm2 hok.1
      have b := writeParams_mono hm3 hok.2.1
      have d := writeChildren_mono children hm4 hok.2.2
      simp only at a b d
      refine ⟨rfl, ?_⟩
      omega
theorem writeChildren_mono {c : Ctx} {pt : BStr → XBT} {x : Nat} : ∀ (es : List Elem) {ca : Nat} {m : Mem} {wp : Nat} {m' : Mem} {wp' : Nat},
    writeChildren c x es ca m wp = .ok (m', wp') → TreeOkAll pt es → wp ≤ wp'
  | [], ca, m, wp, m', wp', h, _ => by unfold writeChildren at h; cases h; exact Nat.le_refl _
  | e :: es, ca, m, wp, m', wp', h, hok => by
    unfold TreeOkAll at hok
    unfold writeChildren at h
    obtain ⟨⟨m1, w1, y⟩, h1, h⟩ := Out.bind_eq_ok h
    obtain ⟨m2, hm2, h⟩ := Out.bind_eq_ok h
    obtain ⟨a, b⟩ := writeNode_mono e h1 hok.1
    have d := writeChildren_mono es h hok.2
    have := aa_ge wp
    simp only at d
    omega
end

/-! ### attributes -/

theorem AttrAt.congr {m m' : Mem} {x pd lo hi hi' : Nat} {id : Int} {d : Data} (h : AttrAt m x pd lo hi id d) (hh : hi ≤ hi')
    (h1 : ∀ a, pd ≤ a → a < pd + 8 → m' a = m a) (h2 : ∀ a, lo ≤ a → a < hi → m' a = m a) (lo' : Nat) (hlo : lo' ≤ lo) : AttrAt m' x pd lo' hi' id d := by
  refine ⟨h.sized, h.notDate, h.nm.congr ?_, h.ty.congr ?_, ?_⟩
  · intro i i1 i2; rw [leN_length] at i2; exact h1 i (by omega) (by omega)
  · intro i i1 i2; simp only [List.length_cons, List.length_nil] at i2; exact h1 i (by omega) (by omega)
  · rcases h.data with ⟨h4, hd⟩ | ⟨h4, q, hq, hd, hb⟩
    · have : d.bytes.length = 4 := by have := h.sized; unfold Sized at this; rw [if_pos h4] at this; exact this
      exact Or.inl ⟨h4, hd.congr fun i i1 i2 => h1 i (by omega) (by omega)⟩
    · refine Or.inr ⟨h4, q, ?_, ?_, ?_⟩
      · rcases hq with hq | hq
        · exact Or.inl hq
        · exact Or.inr ⟨by omega, by omega⟩
      · exact hd.congr fun i i1 i2 => by rw [le32_length] at i2; exact h1 i (by omega) (by omega)
      · rcases hq with hq | hq
        · rw [hq.1]; rfl
        · exact hb.congr fun i i1 i2 => h2 i (by omega) (by omega)

theorem AttrAt.read {f : Img} {x pd lo hi : Nat} {id : Int} {d : Data} (h : AttrAt f.mem x pd lo hi id d) (hid : -32768 ≤ id ∧ id ≤ 32767)
    (hp : pd + 8 ≤ f.size) (hx : x ≤ pd) (hh : hi ≤ f.size) (hs : f.size < 2147483648) : f.pName pd = .ok id ∧ f.pGetData x pd = .ok d := by
  refine ⟨f.i16_ok h.nm (by omega) hid _ rfl, ?_⟩
  unfold Img.pGetData Img.pType Img.pData
  rw [f.u8_ok h.ty (by omega) _ (by omega)]
  simp only [Out.ok_bind, ofCode_code]
  rcases h.data with ⟨h4, hd⟩ | ⟨h4, q, hq, hd, hb⟩
  · rw [if_pos h4]
    have : d.bytes.length = 4 := by have := h.sized; unfold Sized at this; rw [if_pos h4] at this; exact this
    exact f.content_ok h.sized hd (by omega) h.notDate _ (by omega)
  · rw [if_neg (by simp [h4])]
    have hq' : q + d.bytes.length ≤ f.size := by
      rcases hq with ⟨h1, h2⟩ | hq
      · rw [h1]; simp only [List.length_nil]; omega
      · omega
    rw [f.i32_ok hd (by omega) (by unfold isI32 INT_MIN INT_MAX; omega) _ (by omega)]
    simp only [Out.ok_bind]
    exact f.content_ok h.sized hb hq' h.notDate _ (by omega)

theorem writeParams_spec {c : Ctx} (hflt : ∀ s, (c.flt s).length = 4) (hlim : c.limit < 2147483648) {x : Nat} {ps : List (BStr × SVal)} {pd : Nat} {m : Mem} {wp : Nat}
    {m' : Mem} {wp' : Nat} (h : writeParams c x ps pd m wp = .ok (m', wp')) (hok : ∀ p ∈ ps, AttrOk (c.ptype p.1) p.2) (hpd : pd % 4 = 0)
    (hpw : pd + 8 * ps.length ≤ wp) (hfull : wp' < c.limit) :
    (∀ a, a < wp → ¬ (pd ≤ a ∧ a < pd + 8 * ps.length) → m' a = m a) ∧
    ∀ i (hi : i < ps.length), AttrAt m' x (pd + 8 * i) wp wp' (c.params.find (some ps[i].1)) (attrData c.flt (c.ptype ps[i].1) ps[i].2) := by
  induction ps generalizing pd m wp with
  | nil => cases h; exact ⟨fun _ _ _ => rfl, by simp⟩
  | cons p ps ih =>
    unfold writeParams at h
    obtain ⟨⟨m1, w1⟩, h1, h⟩ := Out.bind_eq_ok h
    simp only [List.length_cons] at hpw
    have hok' : ∀ q ∈ ps, AttrOk (c.ptype q.1) q.2 := fun q hq => hok q (by simp [hq])
    have b := writeParams_mono h hok'
    simp only at b h
    obtain ⟨s1, s2, s3⟩ := writeParam_spec hflt h1 (hok p (by simp)) hpd (by omega) (by omega) hlim
    obtain ⟨i1, i2⟩ := ih h hok' (by omega) (by omega)
    refine ⟨?_, ?_⟩
    · intro a ha hn
      simp only [List.length_cons] at hn
      rw [i1 a (by omega) (by omega), s2 a ha (by omega)]
    · intro i hi
      cases i with
      | zero =>
        refine s3.congr b ?_ ?_ _ (Nat.le_refl _)
        · intro a a1 a2; exact i1 a (by omega) (by omega)
        · intro a a1 a2; exact i1 a (by omega) (by omega)
      | succ i =>
        have := i2 i (by simpa using hi)
        rw [show pd + 8 * (i + 1) = pd + 8 + 8 * i by omega]
        exact this.congr (Nat.le_refl _) (fun _ _ _ => rfl) (fun _ _ _ => rfl) _ s1

/-! ### elements -/

mutual
theorem NamesIn.mono {P Q P' Q' : BStr → Prop} (hP : ∀ s, P s → P' s) (hQ : ∀ s, Q s → Q' s) : ∀ e : Elem, NamesIn P Q e → NamesIn P' Q' e
  | .mk name value params children, h => by
    unfold NamesIn at h ⊢
    exact ⟨hP _ h.1, fun p hp => hQ _ (h.2.1 p hp), NamesInAll.mono hP hQ children h.2.2⟩
theorem NamesInAll.mono {P Q P' Q' : BStr → Prop} (hP : ∀ s, P s → P' s) (hQ : ∀ s, Q s → Q' s) : ∀ es : List Elem, NamesInAll P Q es → NamesInAll P' Q' es
  | [], _ => by unfold NamesInAll; trivial
  | e :: es, h => by
    unfold NamesInAll at h ⊢
    exact ⟨NamesIn.mono hP hQ e h.1, NamesInAll.mono hP hQ es h.2⟩
end

/-- the bytes of an item's header in a file -/
structure HeadAt (f : Img) (x : Nat) (name : Int) (pc cc : Nat) (len : Int) : Prop where
  nm : Has f.mem x (leN 2 (toU 16 name))
  pc : Has f.mem (x + 2) (leN 2 (toU 16 pc))
  cc : Has f.mem (x + 4) (le32 cc)
  ln : Has f.mem (x + 8) (le32 len)
  size : x + 12 ≤ f.size

theorem HeadAt.paramcount {f : Img} {x : Nat} {name : Int} {pc cc : Nat} {len : Int} (h : HeadAt f x name pc cc len) (hp : pc ≤ 32767) :
    f.paramcount x = .ok (pc : Int) := f.i16_ok h.pc (by have := h.size; omega) (by omega) _ (by omega)
theorem HeadAt.childcount {f : Img} {x : Nat} {name : Int} {pc cc : Nat} {len : Int} (h : HeadAt f x name pc cc len) (hp : cc ≤ 2147483647) :
    f.childcount x = .ok (cc : Int) := f.i32_ok h.cc (by have := h.size; omega) (by unfold isI32 INT_MIN INT_MAX; omega) _ (by omega)
theorem HeadAt.length {f : Img} {x : Nat} {name : Int} {pc cc : Nat} {len : Int} (h : HeadAt f x name pc cc len) (hp : 0 ≤ len ∧ len ≤ 2147483647) :
    f.length x = .ok len := f.i32_ok h.ln (by have := h.size; omega) (by unfold isI32 INT_MIN INT_MAX; omega) _ (by omega)
theorem HeadAt.name {f : Img} {x : Nat} {name : Int} {pc cc : Nat} {len : Int} (h : HeadAt f x name pc cc len) (hp : -32768 ≤ name ∧ name ≤ 32767) :
    f.name x = .ok name := f.i16_ok h.nm (by have := h.size; omega) hp _ rfl
theorem HeadAt.childrenAt {f : Img} {x : Nat} {name : Int} {pc cc : Nat} {len : Int} (h : HeadAt f x name pc cc len) (hp : pc ≤ 32767) :
    f.childrenAt x = .ok ((x + 12 + 8 * pc : Nat) : Int) := by
  unfold Img.childrenAt
  rw [h.paramcount hp]
  simp only [Out.ok_bind, Out.pure_eq]
  congr 1
theorem HeadAt.valueAt {f : Img} {x : Nat} {name : Int} {pc cc : Nat} {len : Int} (h : HeadAt f x name pc cc len) (hp : pc ≤ 32767) (hc : cc ≤ 2147483647) :
    f.valueAt x = .ok ((x + 12 + 8 * pc + 4 * cc : Nat) : Int) := by
  unfold Img.valueAt
  rw [h.paramcount hp, h.childcount hc]
  simp only [Out.ok_bind, Out.pure_eq]
  congr 1
  omega

theorem Img.rawValue_ok {f : Img} {x va : Nat} {d : Data} (hva : f.valueAt x = .ok (va : Int)) (hsz : Sized d) (ht : Has f.mem va [d.type.code])
    (hb : Has f.mem (alignN d.type (va + 1)) d.bytes) (hs : alignN d.type (va + 1) + d.bytes.length ≤ f.size) : f.rawValue x = .ok d := by
  unfold Img.rawValue
  have hge := alignN_ge d.type (va + 1)
  rw [hva]
  simp only [Out.ok_bind]
  rw [f.u8_ok ht (by omega) _ rfl]
  simp only [Out.ok_bind, ofCode_code]
  have hp : (if xalign d.type = 4 then aaI ((va : Int) + 1) else if xalign d.type = 8 then aa8I ((va : Int) + 1) else (va : Int) + 1) = ((alignN d.type (va + 1) : Nat) : Int) := by
    unfold alignN
    have e : ((va : Int) + 1) = ((va + 1 : Nat) : Int) := by omega
    rw [e, aaI_cast, aa8I_cast]
    split
    · rfl
    · split <;> rfl
  rw [hp]
  split
  · next hd =>
    have h4 : d.bytes.length = 4 := by unfold Sized at hsz; rw [hd] at hsz; simpa [is4, isINT32, is8, isVarsize] using hsz
    rw [f.rd_ok hb hs _ rfl 4 h4.symm]
    rfl
  · next hd => exact f.content_ok hsz hb hs hd _ rfl

mutual
/-- what `WriteNode` leaves in memory can be read as the element, in every file containing these bytes at the same place -/
theorem writeNode_spec {c : Ctx} (hflt : ∀ s, (c.flt s).length = 4) (hlim : c.limit < 2147483648) : ∀ (e : Elem) {m : Mem} {wp : Nat} {m' : Mem} {wp' x : Nat},
    writeNode c e m wp = .ok (m', wp', x) → TreeOk c.ptype e → wp' < c.limit →
    (∀ a, a < x → m' a = m a) ∧
    ∀ f : Img, f.size < 2147483648 → wp' ≤ f.size → (∀ a, x ≤ a → a < wp' → f.mem a = m' a) →
      f.length x = .ok ((wp' : Int) - x) ∧ Laid f e x ∧ ∀ r, NamesIn (TagOk f r c) (ParOk f r c) e → Reads c.flt c.ptype f r e x
  | .mk name value params children, m, wp, m', wp', x, h, hok, hfull => by
    have hmono := writeNode_mono _ h hok
    unfold TreeOk at hok
    unfold writeNode at h
    simp only at h
    split at h
    · cases h
    · next hcnt =>
      obtain ⟨m1, hm1, h⟩ := Out.bind_eq_ok h
      obtain ⟨⟨m2, w2⟩, hm2, h⟩ := Out.bind_eq_ok h
      obtain ⟨⟨m3, w3⟩, hm3, h⟩ := Out.bind_eq_ok h
      obtain ⟨⟨m4, w4⟩, hm4, h⟩ := Out.bind_eq_ok h
      obtain ⟨m5, hm5, h⟩ := Out.bind_eq_ok h
      simp only [Out.pure_eq, Out.ok.injEq, Prod.mk.injEq] at h
      obtain ⟨rfl, rfl, rfl⟩ := h
      have hx : aa wp % 4 = 0 := aa_mod wp
      generalize aa wp = x at *
      obtain ⟨rfl, l1⟩ := put_ok hm1
      obtain ⟨rfl, l5⟩ := put_ok hm5
      simp only at hm3 hm4 hfull l5 hmono ⊢
      have b := writeParams_mono hm3 hok.2.1
      have d := writeChildren_mono children hm4 hok.2.2
      obtain ⟨v1, v2, dv, v3, v4, v5, v6, v7⟩ := writeValue_spec hflt hm2 hok.1 (by omega) hlim
      obtain ⟨p1, p2⟩ := writeParams_spec hflt hlim hm3 hok.2.1 (by omega) (by omega) (by omega)
      obtain ⟨c1, c2⟩ := writeChildren_spec hflt hlim children hm4 hok.2.2 (by omega) (by omega) hfull
      refine ⟨?_, ?_⟩
      · intro a ha
        rw [memPut_frame _ _ _ _ (by lens; omega), c1 a (by omega) (by omega), p1 a (by omega) (by omega), v2 a (by omega),
          memPut_frame _ _ _ _ (by lens; omega)]
      · intro f hf1 hf2 hag
        -- from the memory after the children to the file
        have k4 : ∀ a bs, x ≤ a → a + bs.length ≤ w4 → (a + bs.length ≤ x + 8 ∨ x + 12 ≤ a) → Has m4 a bs → Has f.mem a bs := by
          intro a bs h1 h2 h3 h4
          have := h4.frame (d := x + 8) (cs := le32 ((w4 : Int) - x)) (by rw [le32_length]; omega)
          exact this.congr (fun i i1 i2 => hag i (by omega) (by omega))
        have k3 : ∀ a bs, x ≤ a → a + bs.length ≤ w3 → (a + bs.length ≤ x + 8 ∨ x + 12 ≤ a) →
            (a + bs.length ≤ x + 12 + 8 * params.length ∨ x + 12 + 8 * params.length + 4 * children.length ≤ a) → Has m3 a bs → Has f.mem a bs := by
          intro a bs h1 h2 h3 h4 h5
          exact k4 a bs h1 (by omega) h3 (h5.congr (fun i i1 i2 => c1 i (by omega) (by omega)))
        have k2 : ∀ a bs, x ≤ a → a + bs.length ≤ w2 → (a + bs.length ≤ x + 8 ∨ x + 12 + 8 * params.length + 4 * children.length ≤ a) → Has m2 a bs → Has f.mem a bs := by
          intro a bs h1 h2 h3 h5
          exact k3 a bs h1 (by omega) (by omega) (by omega) (h5.congr (fun i i1 i2 => p1 i (by omega) (by omega)))
        have hhd := Has.self m x (headBytes (c.tags.find (some name)) params.length children.length)
        have k1 : ∀ a bs, x ≤ a → a + bs.length ≤ x + 8 → Has (memPut m x (headBytes (c.tags.find (some name)) params.length children.length)) a bs → Has f.mem a bs := by
          intro a bs h1 h2 h5
          exact k2 a bs h1 (by omega) (by omega) (h5.congr (fun i i1 i2 => v2 i (by omega)))
        unfold headBytes at hhd
        rw [Has.append, Has.append] at hhd
        simp only [leN_length, List.length_append] at hhd
        have head : HeadAt f x (c.tags.find (some name)) params.length children.length ((w4 : Int) - x) := by
          refine ⟨k1 _ _ (by omega) (by rw [leN_length]; omega) hhd.1.1, k1 _ _ (by omega) (by rw [leN_length]; omega) hhd.1.2,
            k1 _ _ (by omega) (by rw [le32_length]; omega) hhd.2, ?_, by omega⟩
          exact (Has.self m4 _ _).congr (fun i i1 i2 => hag i (by omega) (by rw [le32_length] at i2; omega))
        have hlen := head.length (by omega)
        have hpc := head.paramcount (by omega)
        have hcc := head.childcount (by omega)
        have hch := head.childrenAt (by omega)
        have hva := head.valueAt (by omega) (by omega)
        obtain ⟨q1, q2⟩ := c2 f hf1 (by omega) (fun a a1 a2 => by
            rw [hag a (by omega) (by omega), memPut_frame _ _ _ _ (by rw [le32_length]; omega)])
          (fun a a1 a2 => by
            rw [hag a (by omega) (by omega), memPut_frame _ _ _ _ (by rw [le32_length]; omega)]) 0 children.length hcc (by omega) (by rw [hch]; congr 1)
        refine ⟨hlen, ?_, ?_⟩
        · unfold Laid
          refine ⟨by omega, (w4 : Int) - x, (w3 : Int) - x, hlen, by omega, by omega, ?_⟩
          rw [show (x : Int) + ((w3 : Int) - x) = w3 by omega, show (x : Int) + ((w4 : Int) - x) = w4 by omega]
          exact q1
        · intro r hn
          unfold NamesIn at hn
          unfold Reads
          refine ⟨⟨_, head.name hn.1.1, hn.1.2, by rintro rfl; simp [SymTab.find, etTecera]⟩, hpc, ?_, ?_, hcc, q2 r hn.2.2⟩
          · intro i hi
            have hat := p2 i hi
            have hin := hn.2.1 params[i] (List.getElem_mem hi)
            have hat' : AttrAt f.mem x (x + 12 + 8 * i) w2 w3 (c.params.find (some params[i].1)) (attrData c.flt (c.ptype params[i].1) params[i].2) := by
              refine hat.congr (Nat.le_refl _) ?_ ?_ _ (Nat.le_refl _)
              · intro a a1 a2
                rw [hag a (by omega) (by omega), memPut_frame _ _ _ _ (by rw [le32_length]; omega), c1 a (by omega) (by omega)]
              · intro a a1 a2
                rw [hag a (by omega) (by omega), memPut_frame _ _ _ _ (by rw [le32_length]; omega), c1 a (by omega) (by omega)]
            obtain ⟨r1, r2⟩ := hat'.read hin.1 (by omega) (by omega) (by omega) hf1
            refine ⟨((x + 12 + 8 * i : Nat) : Int), _, ?_, r1, hin.2, r2⟩
            unfold Img.getParamByIndex
            rw [if_neg (by omega), hpc]
            simp only [Out.ok_bind, Out.pure_eq]
            rw [if_neg (by omega)]
            congr 2
          · refine ⟨dv, v3, ?_⟩
            refine f.rawValue_ok hva v4 (k2 _ _ (by omega) (by simp only [List.length_cons, List.length_nil]; omega) (by omega) v5) ?_ (by omega)
            have := alignN_ge dv.type (x + 12 + 8 * params.length + 4 * children.length + 1)
            exact k2 _ _ (by omega) (by omega) (by omega) v6
/-- the same for the children of the item at `x`, whose references are stored from `ca` on -/
theorem writeChildren_spec {c : Ctx} (hflt : ∀ s, (c.flt s).length = 4) (hlim : c.limit < 2147483648) {x : Nat} : ∀ (es : List Elem) {ca : Nat} {m : Mem} {wp : Nat} {m' : Mem} {wp' : Nat},
    writeChildren c x es ca m wp = .ok (m', wp') → TreeOkAll c.ptype es → x + 12 ≤ ca → ca + 4 * es.length ≤ wp → wp' < c.limit →
    (∀ a, a < wp → ¬ (ca ≤ a ∧ a < ca + 4 * es.length) → m' a = m a) ∧
    ∀ f : Img, f.size < 2147483648 → wp' ≤ f.size → (∀ a, ca ≤ a → a < ca + 4 * es.length → f.mem a = m' a) → (∀ a, wp ≤ a → a < wp' → f.mem a = m' a) →
      ∀ i n : Nat, f.childcount x = .ok (n : Int) → i + es.length ≤ n → f.childrenAt x = .ok ((ca : Int) - 4 * i) →
      LaidAll f es x i wp wp' ∧ ∀ r, NamesInAll (TagOk f r c) (ParOk f r c) es → ReadsAll c.flt c.ptype f r es x i
  | [], ca, m, wp, m', wp', h, hok, hxc, hcw, hfull => by
    unfold writeChildren at h
    cases h
    refine ⟨fun _ _ _ => rfl, ?_⟩
    intro f _ _ _ _ i n _ _ _
    exact ⟨by unfold LaidAll; rfl, fun r _ => by unfold ReadsAll; trivial⟩
  | e :: es, ca, m, wp, m', wp', h, hok, hxc, hcw, hfull => by
    unfold TreeOkAll at hok
    unfold writeChildren at h
    obtain ⟨⟨m1, w1, y⟩, h1, h⟩ := Out.bind_eq_ok h
    obtain ⟨m2, hm2, h⟩ := Out.bind_eq_ok h
    obtain ⟨rfl, l2⟩ := put_ok hm2
    simp only at h l2
    simp only [List.length_cons] at hcw
    obtain ⟨e1, e2⟩ := writeNode_mono e h1 hok.1
    have hm := writeChildren_mono es h hok.2
    have hge := aa_ge wp
    have hlt := aa_lt wp
    obtain ⟨n1, n2⟩ := writeNode_spec hflt hlim e h1 hok.1 (by omega)
    obtain ⟨i1, i2⟩ := writeChildren_spec hflt hlim es h hok.2 (by omega) (by omega) hfull
    refine ⟨?_, ?_⟩
    · intro a ha hn
      simp only [List.length_cons] at hn
      rw [i1 a (by omega) (by omega), memPut_frame _ _ _ _ (by rw [le32_length]; omega), n1 a (by omega)]
    · intro f hf1 hf2 hag1 hag2 i n hcc hin hch
      simp only [List.length_cons] at hag1 hin
      obtain ⟨r1, r2, r3⟩ := n2 f hf1 (by omega) (fun a a1 a2 => by
        rw [hag2 a (by omega) (by omega), i1 a (by omega) (by omega), memPut_frame _ _ _ _ (by rw [le32_length]; omega)])
      obtain ⟨j1, j2⟩ := i2 f hf1 hf2 (fun a a1 a2 => hag1 a (by omega) (by omega)) (fun a a1 a2 => hag2 a (by omega) a2) (i + 1) n hcc (by omega)
        (by rw [hch]; congr 1; omega)
      have hptr : Has f.mem ca (le32 ((y : Int) - x)) := by
        have := (Has.self m1 ca (le32 ((y : Int) - x)))
        refine this.congr (fun a a1 a2 => ?_)
        rw [le32_length] at a2
        rw [hag1 a (by omega) (by omega), i1 a (by omega) (by omega)]
      have hget : f.getChildByIndex x i = .ok (some (y : Int)) := by
        unfold Img.getChildByIndex
        rw [hcc]
        simp only [Out.ok_bind]
        rw [if_neg (by omega), hch]
        simp only [Out.ok_bind]
        rw [f.i32_ok hptr (by omega) (by unfold isI32 INT_MIN INT_MAX; omega) _ (by omega)]
        simp only [Out.ok_bind, Out.pure_eq]
        congr 2
        omega
      refine ⟨?_, ?_⟩
      · unfold LaidAll
        refine ⟨y, _, hget, by omega, by omega, r1, by omega, r2, ?_⟩
        rw [show (y : Int) + ((w1 : Int) - y) = w1 by omega]
        exact j1
      · intro r hn
        unfold NamesInAll at hn
        unfold ReadsAll
        exact ⟨⟨y, hget, r3 r hn.1⟩, j2 r hn.2⟩
end

end BX
