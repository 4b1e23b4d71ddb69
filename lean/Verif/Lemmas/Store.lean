import Verif.Spec.Tree
import Verif.Lemmas.SymStore
import Verif.Props.Codec
namespace BX
open XBT Spec

/-- the bytes of a value fit its type -/
def Sized (d : Data) : Prop :=
  if is4 d.type then d.bytes.length = 4
  else if is8 d.type then d.bytes.length = 8
  else if d.type = STRING then ∃ s, NoNul s ∧ d.bytes = s ++ [0]
  else if isVarsize d.type then 4 ≤ d.bytes.length ∧ rdI32 d.bytes = (d.bytes.length : Int) - 4
  else if d.type = UNIX_DATE then d.bytes.length = 4
  else 0 ≤ fixedSize d.type ∧ (d.bytes.length : Int) = fixedSize d.type

theorem Img.i32_take {f : Img} {a : Nat} {bs : List UInt8} (h : Has f.mem a bs) (h4 : 4 ≤ bs.length) (hs : a + 4 ≤ f.size) (A : Int) (hA : A = a) :
    f.i32 A = .ok (rdI32 bs) := by
  have h' : Has f.mem a (bs.take 4) := by
    rw [← List.take_append_drop 4 bs, Has.append] at h
    exact h.1
  unfold Img.i32
  rw [f.rd_ok h' (by rw [List.length_take]; omega) A hA 4 (by rw [List.length_take]; omega)]
  rfl

theorem Img.content_ok {f : Img} {p : Nat} {d : Data} (hd : Sized d) (h : Has f.mem p d.bytes) (hs : p + d.bytes.length ≤ f.size)
    (hnd : d.type ≠ UNIX_DATE) (P : Int) (hP : P = p) : f.content d.type P = .ok d := by
  subst hP
  unfold Sized at hd
  unfold Img.content
  split at hd
  · next h4 => rw [if_pos h4, f.rd_ok h hs _ rfl 4 hd.symm]; rfl
  · next h4 =>
    rw [if_neg h4]
    split at hd
    · next h8 => rw [if_pos h8, f.rd_ok h hs _ rfl 8 hd.symm]; rfl
    · next h8 =>
      rw [if_neg h8]
      split at hd
      · next hst =>
        obtain ⟨s, hn, hb⟩ := hd
        rw [if_pos hst]
        rw [hb] at h hs
        rw [f.str_ok h hn (by simpa [Nat.add_assoc] using hs) _ rfl]
        simp only [Out.ok_bind, Out.pure_eq]
        rw [← hb]
      · next hst =>
        rw [if_neg hst]
        split at hd
        · next hv =>
          rw [if_pos hv, f.i32_take h hd.1 (by omega) _ rfl]
          simp only [Out.ok_bind]
          rw [hd.2, if_neg (by omega), f.rd_ok h hs _ rfl _ (by omega)]
          rfl
        · next hv =>
          rw [if_neg hv]
          rw [if_neg (by omega), f.rd_ok h hs _ rfl _ (by omega)]
          rfl

/-! ### XBT_FromString -/

theorem scanHexLoop_mono (n k : Nat) (p : CStr) (h : (scanHexLoop n p).length < n) : scanHexLoop (n + k) p = scanHexLoop n p := by
  induction n generalizing p with
  | zero => simp at h
  | succ n ih =>
    rw [show n + 1 + k = (n + k) + 1 by omega]
    unfold scanHexLoop at h ⊢
    split
    · next a b r hsk =>
      rw [hsk] at h
      simp only at h
      split
      · next x y hx hy =>
        rw [hx, hy] at h
        simp only [List.length_cons, Nat.add_lt_add_iff_right] at h
        rw [ih r h]
      · rfl
    · rfl

theorem scanHexLoop_half (n : Nat) (p : CStr) : 2 * (scanHexLoop n p).length ≤ p.length := by
  induction n generalizing p with
  | zero => simp [scanHexLoop]
  | succ n ih =>
    unfold scanHexLoop
    have hsk : (skipSep p).length ≤ p.length := by unfold skipSep; split <;> simp
    split
    · next a b r hs =>
      rw [hs] at hsk
      split
      · simp only [List.length_cons] at hsk ⊢; have := ih r; omega
      · simp
    · simp

/-- two rooms that are both not filled give the same bytes -/
theorem scanHexLoop_room (n k : Nat) (p : CStr) (h : (scanHexLoop n p).length < n) (hk : p.length < k) : scanHexLoop k p = scanHexLoop n p := by
  have hk' : (scanHexLoop k p).length < k := by have := scanHexLoop_half k p; omega
  have h1 := scanHexLoop_mono n k p h
  have h2 := scanHexLoop_mono k n p hk'
  rw [← h1, ← h2, Nat.add_comm]

theorem cBytes_sized (s : CStr) (h : CText s) : NoNul (s.map fun c => UInt8.ofNat c.toNat) := by
  intro x hx
  obtain ⟨c, hc, rfl⟩ := List.mem_map.mp hx
  have := h c hc
  intro h0
  have h1 := congrArg UInt8.toNat h0
  rw [UInt8.toNat_ofNat'] at h1
  simp only [UInt8.toNat_zero] at h1
  omega

/-- where a converted text is put -/
def fsStart (t : XBT) (wp : Nat) : Nat := if t = STRING ∨ t = NULL then wp else if t = INT64 ∨ t = UINT64 then aa8 wp else aa wp

theorem Sized.four {t : XBT} {bs : List UInt8} (ht : is4 t = true) (h : bs.length = 4) : Sized ⟨t, bs⟩ := by
  unfold Sized; rw [if_pos ht]; exact h
theorem Sized.eight {t : XBT} {bs : List UInt8} (ht4 : is4 t = false) (ht : is8 t = true) (h : bs.length = 8) : Sized ⟨t, bs⟩ := by
  unfold Sized; rw [if_neg (by simp [ht4]), if_pos ht]; exact h

theorem rdI32_leN (n : Nat) (t : List UInt8) (h : n < 2147483648) : rdI32 (leN 4 n ++ t) = n := by
  unfold rdI32
  rw [List.take_append_of_le_length (by simp [leN_length]), List.take_of_length_le (by simp [leN_length])]
  rw [rdN_leN, Nat.mod_eq_of_lt (by simp; omega)]
  unfold ofU
  rw [if_pos (by simp; omega)]

/-- a converted text: where it is, what it is; independent of the place as long as hexadecimal digits do not fill all the room -/
theorem fromString_spec {flt : CStr → List UInt8} (hflt : ∀ s, (flt s).length = 4) {s : CStr} (hs : CText s) {t : XBT} {wp limit : Nat} {w : Wr}
    (h : fromString flt s t wp limit = .ok w) (hfull : w.start + w.bytes.length < limit) (hlim : limit < 2147483648) :
    textData flt s t = some ⟨t, w.bytes⟩ ∧ w.start = fsStart t wp ∧ Sized ⟨t, w.bytes⟩ ∧ (t ≠ HEX → w.scratch = 0) ∧
    (t = HEX → w.start + w.bytes.length + w.scratch = limit) := by
  have step : ∀ {α : Type} {o : Out α} {g : Nat → α → Wr}, o.bind (fun v => .ok (g wp v)) = .ok w → ∃ v, o = .ok v ∧ w = g wp v := by
    intro α o g h
    obtain ⟨v, h1, h2⟩ := Out.obind_eq_ok h
    exact ⟨v, h1, (Out.ok.inj h2).symm⟩
  unfold textData
  unfold fromString at h ⊢
  cases t <;> simp only at h ⊢
  case NULL =>
    split at h
    · next h0 => cases h; exact ⟨by rw [if_pos h0], by simp [fsStart], by simp [Sized, is4, isINT32, is8, isVarsize, fixedSize], fun _ => rfl, by simp⟩
    · cases h
  case STRING =>
    cases h
    refine ⟨rfl, by simp [fsStart], ?_, fun _ => rfl, by simp⟩
    unfold Sized
    rw [if_neg (by simp [is4, isINT32]), if_neg (by simp [is8]), if_pos rfl]
    exact ⟨_, cBytes_sized s hs, rfl⟩
  case INT32 => obtain ⟨v, h1, rfl⟩ := step (g := fun wp v => ⟨aa wp, le32 v, 0⟩) h; exact ⟨by rw [h1]; rfl, by simp [fsStart], .four rfl (by simp), fun _ => rfl, by simp⟩
  case INT32_DECI => obtain ⟨v, h1, rfl⟩ := step (g := fun wp v => ⟨aa wp, le32 v, 0⟩) h; exact ⟨by rw [h1]; rfl, by simp [fsStart], .four rfl (by simp), fun _ => rfl, by simp⟩
  case INT32_CENTI => obtain ⟨v, h1, rfl⟩ := step (g := fun wp v => ⟨aa wp, le32 v, 0⟩) h; exact ⟨by rw [h1]; rfl, by simp [fsStart], .four rfl (by simp), fun _ => rfl, by simp⟩
  case INT32_MILI => obtain ⟨v, h1, rfl⟩ := step (g := fun wp v => ⟨aa wp, le32 v, 0⟩) h; exact ⟨by rw [h1]; rfl, by simp [fsStart], .four rfl (by simp), fun _ => rfl, by simp⟩
  case INT32_MICRO => obtain ⟨v, h1, rfl⟩ := step (g := fun wp v => ⟨aa wp, le32 v, 0⟩) h; exact ⟨by rw [h1]; rfl, by simp [fsStart], .four rfl (by simp), fun _ => rfl, by simp⟩
  case INT32_NANO => obtain ⟨v, h1, rfl⟩ := step (g := fun wp v => ⟨aa wp, le32 v, 0⟩) h; exact ⟨by rw [h1]; rfl, by simp [fsStart], .four rfl (by simp), fun _ => rfl, by simp⟩
  case IPv4 => obtain ⟨v, h1, rfl⟩ := step (g := fun wp (v : Nat × CStr) => ⟨aa wp, leN 4 v.1, 0⟩) h; exact ⟨by rw [h1]; rfl, by simp [fsStart], .four rfl (leN_length _ _), fun _ => rfl, by simp⟩
  case UNIX_TIME => obtain ⟨v, h1, rfl⟩ := step (g := fun wp (v : Nat × CStr) => ⟨aa wp, leN 4 v.1, 0⟩) h; exact ⟨by rw [h1]; rfl, by simp [fsStart], .four rfl (leN_length _ _), fun _ => rfl, by simp⟩
  case INT64 => obtain ⟨v, h1, rfl⟩ := step (g := fun wp (v : Int × CStr) => ⟨aa8 wp, le64 v.1, 0⟩) h; exact ⟨by rw [h1]; rfl, by simp [fsStart], .eight rfl rfl (by simp), fun _ => rfl, by simp⟩
  case UINT64 => obtain ⟨v, h1, rfl⟩ := step (g := fun wp (v : Nat × CStr) => ⟨aa8 wp, leN 8 v.1, 0⟩) h; exact ⟨by rw [h1]; rfl, by simp [fsStart], .eight rfl rfl (leN_length _ _), fun _ => rfl, by simp⟩
  case UNIX_TIME64_MSEC => obtain ⟨v, h1, rfl⟩ := step (g := fun wp v => ⟨aa wp, le64 v, 0⟩) h; exact ⟨by rw [h1]; rfl, by simp [fsStart], .eight rfl rfl (by simp), fun _ => rfl, by simp⟩
  case UNIX_DATE =>
    obtain ⟨v, h1, rfl⟩ := step (g := fun wp (v : Int × CStr) => ⟨aa wp, le32 v.1, 0⟩) h
    exact ⟨by rw [h1]; rfl, by simp [fsStart], by simp [Sized, is4, isINT32, is8, isVarsize], fun _ => rfl, by simp⟩
  case FLOAT => cases h; exact ⟨rfl, by simp [fsStart], .four rfl (hflt s), fun _ => rfl, by simp⟩
  case GUID =>
    split at h
    · next h0 =>
      cases h
      refine ⟨by rw [if_pos h0], by simp [fsStart], ?_, fun _ => rfl, by simp⟩
      have := C08_bounded s 16
      simp [Sized, is4, isINT32, is8, isVarsize, fixedSize, this.1]
    · cases h
  case SHA1 =>
    split at h
    · next h0 =>
      cases h
      refine ⟨by rw [if_pos h0], by simp [fsStart], ?_, fun _ => rfl, by simp⟩
      have := C08_bounded s 20
      simp [Sized, is4, isINT32, is8, isVarsize, fixedSize, this.1]
    · cases h
  case HEX =>
    split at h
    · cases h
    · next hl =>
      have key : ∀ room, (scanHex s room).1 = (scanHexLoop room s).length ∧ (scanHex s room).2.take (scanHexLoop room s).length = scanHexLoop room s := by
        intro room
        unfold scanHex
        split
        · next h0 => subst h0; cases room <;> simp [scanHexLoop, skipSep]
        · simp
      simp only [key] at h ⊢
      have hw := (Out.ok.inj h).symm
      subst hw
      simp only [List.length_append, leN_length] at hfull ⊢
      have hlen := scanHexLoop_length (limit - (aa wp + 4)) s
      have hroom := scanHexLoop_room (limit - (aa wp + 4)) (s.length + 8 - (aa 0 + 4)) s (by omega) (by simp [aa])
      refine ⟨?_, by simp [fsStart], ?_, by simp, fun _ => by omega⟩
      · rw [if_neg (by simp [aa]), hroom]
      · unfold Sized
        rw [if_neg (by simp [is4, isINT32]), if_neg (by simp [is8]), if_neg (by simp), if_pos (by simp [isVarsize])]
        simp only [List.length_append, leN_length]
        refine ⟨by omega, ?_⟩
        rw [rdI32_leN _ _ (by omega)]; omega
  all_goals cases h


/-! ### XBT_Copy -/

/-- the place of a value of type `t` at or behind `wp` -/
def alignN (t : XBT) (wp : Nat) : Nat := if xalign t = 4 then aa wp else if xalign t = 8 then aa8 wp else wp

theorem alignN_ge (t : XBT) (wp : Nat) : wp ≤ alignN t wp := by
  unfold alignN; split
  · exact aa_ge _
  · split
    · exact aa8_ge _
    · exact Nat.le_refl _

/-- the size given to `XBT_Copy` for an element's value or a variable-sized attribute -/
theorem copyTo_spec {limit : Nat} {m : Mem} {src : List UInt8} {t : XBT} {size wp : Nat} {m' : Mem} {wp' : Nat}
    (h : copyTo limit m src t size wp = .ok (m', wp')) (h0 : t ≠ NULL) (h1 : t ≠ VARIANT) (h2 : t ≠ UNKNOWN) (h3 : t ≠ LAST) (h4 : t ≠ BLOB_STRING)
    (hv : isVarsize t → 0 ≤ rdI32 src) (hsize : size = binSize t src) :
    ∃ tail, m' = memPut m (alignN t wp) ((binData t src).bytes ++ tail) ∧ wp' = alignN t wp + ((binData t src).bytes ++ tail).length ∧ wp' ≤ limit ∧
      Sized (binData t src) ∧ (binData t src).type = t := by
  have key : ∀ (n k : Nat), t ≠ STRING → size2 t size = n → (xalign t = 4 ∨ xalign t = 8) → binData t src = ⟨t, src.take k⟩ → k ≤ n →
      (k ≤ src.length → Sized ⟨t, src.take k⟩) → ∃ tail, m' = memPut m (alignN t wp) ((binData t src).bytes ++ tail) ∧
      wp' = alignN t wp + ((binData t src).bytes ++ tail).length ∧ wp' ≤ limit ∧ Sized (binData t src) ∧ (binData t src).type = t := by
    intro n k hns hn hal hb hkn hsz
    unfold copyTo at h
    obtain ⟨⟨m1, w1⟩, hc, h⟩ := Out.bind_eq_ok h
    rw [if_neg (by simp [hns])] at h
    simp only [Out.pure_eq, Out.ok.injEq, Prod.mk.injEq] at h
    obtain ⟨rfl, rfl⟩ := h
    unfold xbtCopy at hc
    simp only [hn] at hc
    split at hc
    · cases hc
    · next hroom =>
      split at hc
      · cases hc
      · next hlen =>
        simp only [Int.toNat_natCast] at hlen hc
        simp only [Out.ok.injEq, Prod.mk.injEq] at hc
        obtain ⟨rfl, rfl⟩ := hc
        have hwa : (if xalign t = 4 then aa wp else aa8 wp) = alignN t wp := by
          unfold alignN
          rcases hal with ha | ha
          · rw [if_pos ha, if_pos ha]
          · rw [if_neg (by omega), if_neg (by omega), if_pos ha]
        have hlt : alignN t wp < wp + xalign t := by
          unfold alignN
          rcases hal with ha | ha
          · rw [if_pos ha, ha]; exact aa_lt _
          · rw [if_neg (by omega), if_pos ha, ha]; exact aa8_lt _
        have htake : src.take n = src.take k ++ (src.drop k).take (n - k) := by
          rw [show n = k + (n - k) by omega, List.take_add, Nat.add_sub_cancel_left]
        refine ⟨(src.drop k).take (n - k), ?_, ?_, ?_, ?_, ?_⟩
        · rw [hb, ← htake, hwa]
        · rw [hb, ← htake, hwa, List.length_take]; omega
        · rw [hwa]; omega
        · rw [hb]; exact hsz (by omega)
        · rw [hb]
  subst hsize
  have hvs : ∀ n : Int, 0 ≤ n → rdI32 src = n → t = BLOB ∨ t = HEX → (4 + n.toNat ≤ src.length → Sized ⟨t, src.take (4 + n.toNat)⟩) := by
    intro n hn hr ht hl
    have hrd : rdI32 (src.take (4 + n.toNat)) = rdI32 src := by
      unfold rdI32; rw [List.take_take, Nat.min_eq_left (by omega)]
    have hlen : (src.take (4 + n.toNat)).length = 4 + n.toNat := by rw [List.length_take]; omega
    rcases ht with rfl | rfl
    all_goals
      simp only [Sized, is4, isINT32, is8, isVarsize]
      simp only [hrd, hlen, hr]
      simp
      omega
  have len_take : ∀ k, k ≤ src.length → (src.take k).length = k := fun k hk => by rw [List.length_take]; omega
  cases t
  case NULL => exact absurd rfl h0
  case VARIANT => exact absurd rfl h1
  case UNKNOWN => exact absurd rfl h2
  case LAST => exact absurd rfl h3
  case BLOB_STRING => exact absurd rfl h4
  case STRING =>
    unfold copyTo at h
    obtain ⟨⟨m1, w1⟩, hc, h⟩ := Out.bind_eq_ok h
    split at h
    · cases h
    · next hroom =>
      simp only [Out.pure_eq, Out.ok.injEq, Prod.mk.injEq] at h
      obtain ⟨rfl, rfl⟩ := h
      unfold xbtCopy at hc
      simp only at hc
      split at hc
      · cases hc
      · rw [if_pos trivial] at hc
        split at hc
        · cases hc
        · simp only [Out.ok.injEq, Prod.mk.injEq] at hc
          obtain ⟨rfl, rfl⟩ := hc
          have hsz : size2 STRING (binSize STRING src) = (cPrefix src).length + 1 := rfl
          rw [hsz]
          simp only [true_and, Nat.not_lt] at hroom
          refine ⟨[], ?_, ?_, ?_, ?_, rfl⟩
          · rw [List.append_nil]; rfl
          · simp [binData, alignN, xalign]; omega
          · omega
          · simp only [Sized, binData]
            refine ⟨cPrefix src, ?_, rfl⟩
            intro x hx
            have : ∀ (l : List UInt8), ∀ x ∈ l.takeWhile (· ≠ 0), x ≠ 0 := by
              intro l
              induction l with
              | nil => simp
              | cons a l ih =>
                rw [List.takeWhile_cons]
                split
                · next ha => intro x hx; rcases List.mem_cons.mp hx with rfl | hx
                             · simpa using ha
                             · exact ih x hx
                · simp
            exact this src x hx
  case BLOB => exact key _ _ (by decide) (show size2 BLOB (rdI32 src).toNat = ((rdI32 src).toNat + 4 : Nat) from rfl) (Or.inl rfl) rfl (by omega) (hvs _ (hv rfl) rfl (by simp))
  case HEX => exact key _ _ (by decide) (show size2 HEX (rdI32 src).toNat = ((rdI32 src).toNat + 4 : Nat) from rfl) (Or.inl rfl) rfl (by omega) (hvs _ (hv rfl) rfl (by simp))
  case SHA1 => exact key 24 20 (by decide) rfl (Or.inl rfl) rfl (by omega) (fun hk => by simp [Sized, is4, isINT32, is8, isVarsize, fixedSize]; omega)
  case GUID => exact key 16 16 (by decide) rfl (Or.inl rfl) rfl (by omega) (fun hk => by simp [Sized, is4, isINT32, is8, isVarsize, fixedSize]; omega)
  case IPv6 => exact key 16 16 (by decide) rfl (Or.inr rfl) rfl (by omega) (fun hk => by simp [Sized, is4, isINT32, is8, isVarsize, fixedSize]; omega)
  case INT64 => exact key 8 8 (by decide) rfl (Or.inr rfl) rfl (by omega) (fun hk => .eight rfl rfl (len_take _ hk))
  case UINT64 => exact key 8 8 (by decide) rfl (Or.inr rfl) rfl (by omega) (fun hk => .eight rfl rfl (len_take _ hk))
  case DOUBLE => exact key 8 8 (by decide) rfl (Or.inr rfl) rfl (by omega) (fun hk => .eight rfl rfl (len_take _ hk))
  case UNIX_TIME64_MSEC => exact key 8 8 (by decide) rfl (Or.inr rfl) rfl (by omega) (fun hk => .eight rfl rfl (len_take _ hk))
  case UNIX_DATE => exact key 4 4 (by decide) rfl (Or.inl rfl) rfl (by omega) (fun hk => by simp [Sized, is4, isINT32, is8, isVarsize]; omega)
  all_goals exact key 4 4 (by decide) rfl (Or.inl rfl) rfl (by omega) (fun hk => .four rfl (len_take _ hk))


theorem copyTo_room {limit : Nat} {m : Mem} {src : List UInt8} {t : XBT} {size wp : Nat} {r : Mem × Nat} (h : copyTo limit m src t size wp = .ok r) :
    size2 t size + xalign t ≤ (limit : Int) - wp := by
  unfold copyTo at h
  obtain ⟨r', hc, -⟩ := Out.bind_eq_ok h
  unfold xbtCopy at hc
  simp only at hc
  split at hc
  · cases hc
  · omega

theorem copyTo_fail {limit : Nat} {m : Mem} {src : List UInt8} {t : XBT} {size wp : Nat} (h : copyTo limit m src t size wp = .fail) :
    (limit : Int) - wp < size2 t size + xalign t := by
  unfold copyTo at h
  cases hc : xbtCopy m src t size wp limit with
  | ok r => rw [hc] at h; simp only [Out.ok_bind] at h; split at h <;> cases h
  | ub => rw [hc] at h; cases h
  | fail =>
    unfold xbtCopy at hc
    simp only at hc
    split at hc
    · assumption
    · split at hc
      · split at hc <;> cases hc
      · split at hc
        · split at hc <;> cases hc
        · cases hc

/-! ### values of elements -/

theorem fsStart_eq {flt : CStr → List UInt8} {s : CStr} {t : XBT} {wp limit : Nat} {w : Wr} (h : fromString flt s t wp limit = .ok w)
    (ht : t ≠ UNIX_TIME64_MSEC) : fsStart t = alignN t := by
  funext p
  cases t <;> first | rfl | exact absurd rfl ht | (unfold fromString at h; cases h)

theorem writeValue_spec {c : Ctx} (hflt : ∀ s, (c.flt s).length = 4) {m : Mem} {va : Nat} {v : SVal} {m' : Mem} {wp' : Nat}
    (h : writeValue c m va v = .ok (m', wp')) (hok : NodeOk v) (hfull : wp' < c.limit) (hlim : c.limit < 2147483648) :
    va < wp' ∧ (∀ a, a < va → m' a = m a) ∧
    ∃ d, nodeData c.flt v = some d ∧ Sized d ∧ Has m' va [d.type.code] ∧ Has m' (alignN d.type (va + 1)) d.bytes ∧
      alignN d.type (va + 1) + d.bytes.length ≤ wp' := by
  have null : ∀ d, d = (⟨NULL, []⟩ : Data) → (do let m ← put c.limit m va [NULL.code]; return (m, va + 1) : Out (Mem × Nat)) = .ok (m', wp') → va < wp' ∧ (∀ a, a < va → m' a = m a) ∧
      (Sized d ∧ Has m' va [d.type.code] ∧ Has m' (alignN d.type (va + 1)) d.bytes ∧ alignN d.type (va + 1) + d.bytes.length ≤ wp') := by
    rintro d rfl h
    obtain ⟨m1, hm1, h⟩ := Out.bind_eq_ok h
    obtain ⟨rfl, hl⟩ := put_ok hm1
    simp only [Out.pure_eq, Out.ok.injEq, Prod.mk.injEq] at h
    obtain ⟨rfl, rfl⟩ := h
    refine ⟨by omega, fun a ha => memPut_frame _ _ _ _ (by omega), ?_, Has.self _ _ _, rfl, by simp [alignN, xalign]⟩
    simp [Sized, is4, isINT32, is8, isVarsize, fixedSize]
  cases v with
  | none =>
    obtain ⟨h1, h2, h3⟩ := null _ rfl h
    exact ⟨h1, h2, _, rfl, h3⟩
  | text s =>
    unfold writeValue at h
    simp only at h
    obtain ⟨m1, hm1, h⟩ := Out.bind_eq_ok h
    obtain ⟨w, hw, h⟩ := Out.bind_eq_ok h
    obtain ⟨m2, hm2, h⟩ := Out.bind_eq_ok h
    obtain ⟨rfl, hl1⟩ := put_ok hm1
    obtain ⟨rfl, hl2⟩ := put_ok hm2
    simp only [Out.pure_eq, Out.ok.injEq, Prod.mk.injEq] at h
    obtain ⟨rfl, rfl⟩ := h
    obtain ⟨f1, f2, f3, f4, f5⟩ := fromString_spec hflt hok.1 hw hfull hlim
    rw [fsStart_eq hw hok.2] at f2
    have hge := alignN_ge (detect s) (va + 1)
    refine ⟨by omega, ?_, ⟨detect s, w.bytes⟩, f1, f3, ?_, ?_, ?_⟩
    · intro a ha
      rw [memPut_frame _ _ _ _ (by omega), memPut_frame _ _ _ _ (by lens; omega)]
    · exact Has.frame (Has.self _ _ _) (by lens; omega)
    · rw [← f2]
      exact (Has.append.mp (Has.self _ _ _)).1
    · rw [← f2]; exact Nat.le_refl _
  | bin t src =>
    unfold writeValue at h
    obtain ⟨k1, k2, k3, k4, k5⟩ := hok
    by_cases h0 : t = NULL
    · simp only [if_pos h0] at h
      obtain ⟨h1, h2, h3⟩ := null (binData t src) (by rw [h0]; rfl) h
      exact ⟨h1, h2, _, rfl, h3⟩
    · simp only [if_neg h0] at h
      obtain ⟨m1, hm1, h⟩ := Out.bind_eq_ok h
      obtain ⟨rfl, hl1⟩ := put_ok hm1
      obtain ⟨tail, rfl, c2, c3, c4, c5⟩ := copyTo_spec h h0 k1 k2 k3 k4 k5 rfl
      have hge := alignN_ge t (va + 1)
      rw [List.length_append] at c2
      refine ⟨by omega, ?_, binData t src, rfl, c4, ?_, ?_, ?_⟩
      · intro a ha
        rw [memPut_frame _ _ _ _ (by omega), memPut_frame _ _ _ _ (by lens; omega)]
      · rw [c5]; exact Has.frame (Has.self _ _ _) (by simp only [List.length_cons, List.length_nil]; omega)
      · rw [c5]
        exact (Has.append.mp (Has.self _ _ _)).1
      · rw [c5]; omega

/-! ### attributes -/

theorem fromString_fail {flt : CStr → List UInt8} {s : CStr} {t : XBT} {wp limit : Nat} (h : fromString flt s t wp limit = .fail) :
    textData flt s t = none := by
  have step : ∀ {α : Type} {o : Out α} {g : α → Wr}, o.bind (fun v => .ok (g v)) = .fail → o = .fail := by
    intro α o g h; cases o <;> first | rfl | cases h
  unfold textData
  unfold fromString at h ⊢
  cases t <;> simp only at h ⊢
  case NULL =>
    split at h
    · cases h
    · next h0 => rw [if_neg h0]
  case GUID =>
    split at h
    · cases h
    · next h0 => rw [if_neg h0]
  case SHA1 =>
    split at h
    · cases h
    · next h0 => rw [if_neg h0]
  case HEX => split at h <;> cases h
  case STRING => cases h
  case FLOAT => cases h
  all_goals rw [step h]; rfl

theorem size2_four {flt : CStr → List UInt8} {s : CStr} {t : XBT} {wp limit : Nat} {w : Wr} (h : fromString flt s t wp limit = .ok w)
    (h4 : size2 t 0 = 4) (hd : t ≠ UNIX_DATE) (hh : t ≠ HEX) : is4 t = true ∧ ∀ p, fsStart t p = aa p := by
  cases t <;> first | exact ⟨rfl, fun p => rfl⟩ | exact absurd rfl hd | exact absurd rfl hh | (exfalso; revert h4; decide) | (unfold fromString at h; cases h)

theorem size2_le_four {t : XBT} (h : size2 t 0 ≤ 4) (h0 : t ≠ NULL) (h1 : t ≠ VARIANT) (h2 : t ≠ UNKNOWN) (h3 : t ≠ LAST) (hs : t ≠ STRING)
    (hd : t ≠ UNIX_DATE) (hv : ¬ isVarsize t = true) : is4 t = true ∧ (∀ p, alignN t p = aa p) ∧ size2 t 0 = 4 ∧ xalign t = 4 := by
  revert h h0 h1 h2 h3 hs hd hv
  cases t <;> first | (intros; exact ⟨rfl, fun p => rfl, rfl, rfl⟩) | (intros; contradiction) | (intro h; exfalso; revert h; decide) | (intros; simp_all [isVarsize])

/-- an attribute as it is stored: description at `pd`, data in it or at an offset -/
structure AttrAt (m : Mem) (x pd lo hi : Nat) (id : Int) (d : Data) : Prop where
  sized : Sized d
  notDate : d.type ≠ UNIX_DATE
  nm : Has m pd (leN 2 (toU 16 id))
  ty : Has m (pd + 2) [d.type.code]
  data : (is4 d.type = true ∧ Has m (pd + 4) d.bytes) ∨
    (is4 d.type = false ∧ ∃ q, (d.bytes = [] ∧ q = x ∨ lo ≤ q ∧ q + d.bytes.length ≤ hi) ∧ Has m (pd + 4) (le32 ((q : Int) - x)) ∧ Has m q d.bytes)

theorem Sized.null : Sized ⟨NULL, []⟩ := by simp [Sized, is4, isINT32, is8, isVarsize, fixedSize]

theorem writeParam_spec {c : Ctx} (hflt : ∀ s, (c.flt s).length = 4) {x pd : Nat} {p : BStr × SVal} {m : Mem} {wp : Nat} {m' : Mem} {wp' : Nat}
    (h : writeParam c x pd p m wp = .ok (m', wp')) (hok : AttrOk (c.ptype p.1) p.2) (hpd : pd % 4 = 0) (hpw : pd + 8 ≤ wp) (hfull : wp' < c.limit)
    (hlim : c.limit < 2147483648) :
    wp ≤ wp' ∧ (∀ a, a < wp → ¬ (pd ≤ a ∧ a < pd + 8) → m' a = m a) ∧
    AttrAt m' x pd wp wp' (c.params.find (some p.1)) (attrData c.flt (c.ptype p.1) p.2) := by
  obtain ⟨name, v⟩ := p
  simp only at hok ⊢
  unfold writeParam at h
  simp only at h
  generalize hid : c.params.find (some name) = id at *
  obtain ⟨m1, hm1, h⟩ := Out.bind_eq_ok h
  obtain ⟨rfl, hl1⟩ := put_ok hm1
  have hpt : (if 0 ≤ id then c.params.type id.toNat else UNKNOWN) = c.ptype name := by unfold Ctx.ptype; rw [hid]
  rw [hpt] at h
  generalize c.ptype name = pt at *
  have null : ∀ d : Data, d = ⟨NULL, []⟩ → (do
        let m ← put c.limit (memPut m pd (leN 2 (toU 16 id))) (pd + 2) [NULL.code]
        let m ← put c.limit m (pd + 4) (le32 0)
        return (m, wp) : Out (Mem × Nat)) = .ok (m', wp') → wp ≤ wp' ∧ (∀ a, a < wp → ¬ (pd ≤ a ∧ a < pd + 8) → m' a = m a) ∧ AttrAt m' x pd wp wp' id d := by
    rintro d rfl h
    obtain ⟨m2, hm2, h⟩ := Out.bind_eq_ok h
    obtain ⟨m3, hm3, h⟩ := Out.bind_eq_ok h
    obtain ⟨rfl, hl2⟩ := put_ok hm2
    obtain ⟨rfl, hl3⟩ := put_ok hm3
    simp only [Out.pure_eq, Out.ok.injEq, Prod.mk.injEq] at h
    obtain ⟨rfl, rfl⟩ := h
    refine ⟨Nat.le_refl _, ?_, .null, by simp, ?_, ?_, ?_⟩
    · intro a h1 h2
      rw [memPut_frame _ _ _ _ (by lens; omega), memPut_frame _ _ _ _ (by lens; omega), memPut_frame _ _ _ _ (by lens; omega)]
    · hasput
    · hasput
    · refine Or.inr ⟨rfl, x, Or.inl ⟨rfl, rfl⟩, ?_, rfl⟩
      rw [Int.sub_self]
      hasput
  have str : ∀ s : CStr, CText s → writeParamStr c x pd s (memPut m pd (leN 2 (toU 16 id))) wp = .ok (m', wp') →
      wp ≤ wp' ∧ (∀ a, a < wp → ¬ (pd ≤ a ∧ a < pd + 8) → m' a = m a) ∧ AttrAt m' x pd wp wp' id ⟨STRING, cBytes s⟩ := by
    intro s hs h
    unfold writeParamStr at h
    obtain ⟨m2, hm2, h⟩ := Out.bind_eq_ok h
    obtain ⟨m3, hm3, h⟩ := Out.bind_eq_ok h
    obtain ⟨m4, hm4, h⟩ := Out.bind_eq_ok h
    obtain ⟨rfl, hl2⟩ := put_ok hm2
    obtain ⟨rfl, hl3⟩ := put_ok hm3
    obtain ⟨rfl, hl4⟩ := put_ok hm4
    simp only [Out.pure_eq, Out.ok.injEq, Prod.mk.injEq] at h
    obtain ⟨rfl, rfl⟩ := h
    have hlen : (cBytes s).length = s.length + 1 := by simp [cBytes]
    refine ⟨by omega, ?_, ?_, by simp, ?_, ?_, ?_⟩
    · intro a h1 h2
      rw [memPut_frame _ _ _ _ (by omega), memPut_frame _ _ _ _ (by lens; omega), memPut_frame _ _ _ _ (by lens; omega),
        memPut_frame _ _ _ _ (by lens; omega)]
    · simp only [Sized, is4, isINT32, is8]; exact ⟨_, cBytes_sized s hs, rfl⟩
    · hasput
    · hasput
    · refine Or.inr ⟨rfl, wp, Or.inr ⟨Nat.le_refl _, ?_⟩, ?_, Has.self _ _ _⟩
      · simp only [hlen]; omega
      · hasput
  cases v with
  | none => exact null _ rfl h
  | text v =>
    simp only at h
    unfold attrData
    by_cases hv : v = []
    · rw [if_pos hv] at h
      simp only [if_pos hv]
      exact null _ rfl h
    · rw [if_neg hv] at h
      simp only [if_neg hv]
      obtain ⟨hd, hh⟩ := hok.2 hv
      by_cases h4 : size2 (detect2 v pt) 0 = 4
      · rw [if_pos h4] at h
        rw [if_pos h4]
        cases hfs : fromString c.flt v (detect2 v pt) (pd + 4) c.limit with
        | ub => rw [hfs] at h; cases h
        | fail =>
          rw [hfs] at h
          rw [fromString_fail hfs]
          exact str v hok.1 h
        | ok w =>
          rw [hfs] at h
          simp only at h
          obtain ⟨m2, hm2, h⟩ := Out.bind_eq_ok h
          obtain ⟨m3, hm3, h⟩ := Out.bind_eq_ok h
          obtain ⟨rfl, hl2⟩ := put_ok hm2
          obtain ⟨rfl, hl3⟩ := put_ok hm3
          simp only [Out.pure_eq, Out.ok.injEq, Prod.mk.injEq] at h
          obtain ⟨rfl, rfl⟩ := h
          obtain ⟨i4, ist⟩ := size2_four hfs h4 hd hh
          have hst0 : aa (pd + 4) = pd + 4 := aa_of_mod (by omega)
          -- the length of the bytes is known before using `fromString_spec`
          have hlw : w.start + w.bytes.length < c.limit := by
            by_cases hq : w.start + w.bytes.length < c.limit
            · exact hq
            · exfalso
              have hb4 : w.bytes.length = 4 ∧ w.start = aa (pd + 4) := by
                have hfs2 := hfs
                revert i4
                generalize detect2 v pt = t at hfs2
                intro i4
                have step : ∀ {α : Type} {o : Out α} {g : α → Wr}, o.bind (fun v => .ok (g v)) = .ok w → ∃ v, w = g v := by
                  intro α o g h
                  obtain ⟨v, h1, h2⟩ := Out.obind_eq_ok h
                  exact ⟨v, (Out.ok.inj h2).symm⟩
                unfold fromString at hfs2
                cases t <;> simp only at hfs2 <;> first
                  | (exfalso; revert i4; decide)
                  | (obtain ⟨v, rfl⟩ := step hfs2; exact ⟨by simp [leN_length], rfl⟩)
                  | (cases hfs2; exact ⟨hflt v, rfl⟩)
                  | cases hfs2
              omega
          obtain ⟨f1, f2, f3, f4, f5⟩ := fromString_spec hflt hok.1 hfs hlw hlim
          rw [ist, hst0] at f2
          have f4 := f4 hh
          have hb4 : w.bytes.length = 4 := by unfold Sized at f3; rw [if_pos i4] at f3; exact f3
          rw [f1, f2, f4]
          simp only [Option.getD_some, List.replicate_zero, List.append_nil]
          refine ⟨Nat.le_refl _, ?_, f3, hd, ?_, ?_, Or.inl ⟨i4, ?_⟩⟩
          · intro a h1 h2
            rw [memPut_frame _ _ _ _ (by lens; omega), memPut_frame _ _ _ _ (by omega), memPut_frame _ _ _ _ (by lens; omega)]
          · hasput
          · hasput
          · hasput
      · rw [if_neg h4] at h
        rw [if_neg h4]
        exact str v hok.1 h
  | bin t src =>
    obtain ⟨k1, k2, k3, k4, k5, k6, k7⟩ := hok
    simp only at h
    unfold attrData
    by_cases h0 : t = NULL
    · rw [if_pos h0] at h
      exact null _ (by rw [h0]; rfl) h
    · rw [if_neg h0] at h
      have outside : ∀ size, size = binSize t src → is4 t = false → (do
          let m ← put c.limit (memPut m pd (leN 2 (toU 16 id))) (pd + 2) [t.code]
          let m ← put c.limit m (pd + 4) (le32 (((if xalign t = 4 then aa wp else if xalign t = 8 then aa8 wp else wp : Nat) : Int) - x))
          copyTo c.limit m src t size (if xalign t = 4 then aa wp else if xalign t = 8 then aa8 wp else wp) : Out (Mem × Nat)) = .ok (m', wp') →
          wp ≤ wp' ∧ (∀ a, a < wp → ¬ (pd ≤ a ∧ a < pd + 8) → m' a = m a) ∧ AttrAt m' x pd wp wp' id (binData t src) := by
        intro size hsz hn4 h
        obtain ⟨m2, hm2, h⟩ := Out.bind_eq_ok h
        obtain ⟨m3, hm3, h⟩ := Out.bind_eq_ok h
        obtain ⟨rfl, hl2⟩ := put_ok hm2
        obtain ⟨rfl, hl3⟩ := put_ok hm3
        obtain ⟨tail, rfl, c2, c3, c4, c5⟩ := copyTo_spec h h0 k1 k2 k3 k4 k7 hsz
        have e1 : (if xalign t = 4 then aa wp else if xalign t = 8 then aa8 wp else wp) = alignN t wp := rfl
        rw [e1] at c2 ⊢
        have e2 : alignN t (alignN t wp) = alignN t wp := by
          unfold alignN
          split
          · exact aa_of_mod (aa_mod _)
          · split
            · have := aa8_mod wp; unfold aa8 at *; omega
            · rfl
        rw [e2] at c2 ⊢
        have hge := alignN_ge t wp
        rw [List.length_append] at c2
        refine ⟨by omega, ?_, c4, by rw [c5]; exact k6, ?_, ?_, Or.inr ⟨by rw [c5]; exact hn4, alignN t wp, Or.inr ⟨hge, by omega⟩, ?_, ?_⟩⟩
        · intro a h1 h2
          rw [memPut_frame _ _ _ _ (by omega), memPut_frame _ _ _ _ (by lens; omega), memPut_frame _ _ _ _ (by lens; omega),
            memPut_frame _ _ _ _ (by lens; omega)]
        · refine Has.frame ?_ (by simp only [leN_length]; omega); hasput
        · rw [c5]; refine Has.frame ?_ (by simp only [List.length_cons, List.length_nil]; omega); hasput
        · refine Has.frame ?_ (by simp only [le32_length]; omega); hasput
        · exact (Has.append.mp (Has.self _ _ _)).1
      split at h
      · next hv =>
        have hn4 : is4 t = false := by revert hv; cases t <;> decide
        refine outside _ ?_ hn4 h
        revert hv k4
        cases t <;> simp [isVarsize, binSize]
      · next hv =>
        have hbs : binSize t src = 0 := by
          revert hv k5
          cases t <;> simp [isVarsize, binSize]
        split at h
        · next hs4 =>
          obtain ⟨i4, ial, isz, ixa⟩ := size2_le_four hs4.2 h0 k1 k2 k3 k5 k6 hv
          have hst0 : aa (pd + 4) = pd + 4 := aa_of_mod (by omega)
          cases hcp : copyTo c.limit (memPut m pd (leN 2 (toU 16 id))) src t 0 (pd + 4) with
          | ub => rw [hcp] at h; cases h
          | fail =>
            exfalso
            rw [hcp] at h
            simp only at h
            obtain ⟨m2, hm2, h⟩ := Out.bind_eq_ok h
            obtain ⟨m3, hm3, h⟩ := Out.bind_eq_ok h
            have r1 := copyTo_room h
            have r2 := copyTo_fail hcp
            rw [isz, ixa] at r1 r2
            simp only [if_true] at r1
            have := aa_ge wp
            omega
          | ok r =>
            obtain ⟨mr, wr⟩ := r
            rw [hcp] at h
            simp only at h
            obtain ⟨m2, hm2, h⟩ := Out.bind_eq_ok h
            obtain ⟨rfl, hl2⟩ := put_ok hm2
            simp only [Out.pure_eq, Out.ok.injEq, Prod.mk.injEq] at h
            obtain ⟨rfl, rfl⟩ := h
            obtain ⟨tail, rfl, c2, c3, c4, c5⟩ := copyTo_spec hcp h0 k1 k2 k3 k4 k7 hbs.symm
            have hb4 : (binData t src).bytes.length = 4 := by unfold Sized at c4; rw [c5, if_pos i4] at c4; exact c4
            have htail : tail = [] := by
              have hb : binData t src = ⟨t, src.take 4⟩ := by
                unfold binData
                rw [if_neg h0, if_neg k5, if_neg hv, if_pos (Or.inl i4)]
              unfold copyTo at hcp
              obtain ⟨⟨mx, wx⟩, hxc, hcp⟩ := Out.bind_eq_ok hcp
              unfold xbtCopy at hxc
              simp only [isz, ixa] at hxc
              split at hxc
              · cases hxc
              · simp only [true_or, if_true] at hxc
                split at hxc
                · cases hxc
                · rw [if_neg (by simp [k5])] at hcp
                  simp only [Out.pure_eq, Out.ok.injEq, Prod.mk.injEq] at hcp hxc
                  obtain ⟨-, hw⟩ := hcp
                  obtain ⟨-, hw'⟩ := hxc
                  rw [ial] at c2
                  rw [List.length_append, hb4] at c2
                  exact List.length_eq_zero_iff.mp (by omega)
            subst htail
            rw [ial, hst0, List.append_nil]
            refine ⟨Nat.le_refl _, ?_, c4, by rw [c5]; exact k6, ?_, ?_, Or.inl ⟨by rw [c5]; exact i4, ?_⟩⟩
            · intro a h1 h2
              rw [memPut_frame _ _ _ _ (by lens; omega), memPut_frame _ _ _ _ (by omega), memPut_frame _ _ _ _ (by lens; omega)]
            · hasput
            · rw [c5]; hasput
            · hasput
        · next hs4 =>
          refine outside 0 hbs.symm ?_ h
          have h5 : ¬ size2 t 0 ≤ 4 := fun hle => hs4 ⟨k5, hle⟩
          revert h5
          cases t <;> decide

end BX
