import Verif.Lemmas.Attrs
import Verif.Props.Room
import Verif.Props.Rings
import Verif.Props.Roundtrip
import Verif.Props.Check
import Verif.Spec.Copy
/-
Copying elements of a file into a writable document.
-/
namespace BX
open XBT Spec

/-! ### values -/

/-- a value that is read as it is stored -/
def DataGood (d : Data) : Prop := GoodVal d.type d.bytes ∧ readable d.type d.bytes = d.bytes

theorem noNul_takeWhile : ∀ {s : List UInt8} (l : List UInt8), (∀ x ∈ s, x ≠ 0) → (s ++ 0 :: l).takeWhile (· ≠ 0) = s
  | [], _, _ => rfl
  | a :: s, l, h => by
    rw [List.cons_append, List.takeWhile_cons, if_pos (by simpa using h a (by simp)), noNul_takeWhile l fun x hx => h x (by simp [hx])]

theorem sized_good {d : Data} (h : Sized d) (hd : d.type ≠ UNIX_DATE) (hl : d.bytes.length < 2147483648) : DataGood d := by
  obtain ⟨t, v⟩ := d
  unfold Sized at h
  simp only at h hd hl
  unfold DataGood
  simp only
  by_cases h4 : is4 t = true
  · rw [if_pos h4] at h
    cases t <;> first | (exact absurd h4 (by decide)) | (refine ⟨?_, rfl⟩; simp only [GoodVal]; rw [if_pos h4]; exact h)
  rw [if_neg h4] at h
  by_cases h8 : is8 t = true
  · rw [if_pos h8] at h
    cases t <;> first | (exact absurd h8 (by decide)) | (refine ⟨?_, rfl⟩; simp only [GoodVal]; rw [if_neg h4, h]; rfl)
  rw [if_neg h8] at h
  by_cases hs : t = STRING
  · subst hs
    rw [if_pos rfl] at h
    obtain ⟨s, h1, rfl⟩ := h
    refine ⟨by simp [GoodVal], ?_⟩
    show (s ++ [0]).takeWhile (· ≠ 0) ++ [0] = _
    rw [noNul_takeWhile [] h1]
  rw [if_neg hs] at h
  by_cases hv : isVarsize t = true
  · rw [if_pos hv] at h
    obtain ⟨h1, h2⟩ := h
    have hr : readable t v = v := by cases t <;> first | (exact absurd hv (by decide)) | rfl
    have hg : ∃ bs, v = le32 (bs.length : Int) ++ bs ∧ bs.length + 4 < 2147483648 := by
      refine ⟨v.drop 4, ?_, by simp; omega⟩
      have h4 : (v.take 4).length = 4 := by rw [List.length_take]; omega
      have := (le32_rdI32 (v.take 4) h4).1
      have he : rdI32 (v.take 4) = rdI32 v := by unfold rdI32; rw [List.take_take]; simp
      rw [he, h2] at this
      rw [show (((v.drop 4).length : Nat) : Int) = (v.length : Int) - 4 by simp; omega, this, List.take_append_drop]
    refine ⟨?_, hr⟩
    cases t <;> first | (exact absurd hv (by decide)) | exact hg
  rw [if_neg hv, if_neg hd] at h
  by_cases hsh : t = SHA1
  · subst hsh
    have : (v.length : Int) = 20 := h.2
    refine ⟨by simp only [GoodVal]; omega, ?_⟩
    show v.take 20 = v
    exact List.take_of_length_le (by omega)
  have hr : readable t v = v := by cases t <;> first | (exact absurd rfl hs) | (exact absurd rfl hsh) | rfl
  refine ⟨?_, hr⟩
  cases t <;> first | (exact absurd rfl hs) | (exact absurd rfl hsh) | (exact absurd rfl hd) | (exact absurd (by decide) hv) | (simp only [GoodVal]; rw [if_neg h4]; exact h.2)

theorem slice_take (m : Mem) (a n k : Nat) (h : k ≤ n) : (slice m a n).take k = slice m a k := by
  unfold slice
  rw [← List.map_take, List.take_range, Nat.min_eq_left h]

theorem rd_length {f : Img} {a : Int} {n : Nat} {l : List UInt8} (h : f.rd a n = .ok l) : l.length = n ∧ n ≤ f.size ∧ l = slice f.mem a.toNat n := by
  have hi := Img.rd_inv h
  unfold Img.rd at h
  rw [if_pos hi] at h
  cases h
  exact ⟨by simp [slice], by omega, rfl⟩

/-- values that are read from a file -/
theorem content_sized {f : Img} {t : XBT} {p : Int} {d : Data} (h : f.content t p = .ok d) (hv : isVarsize d.type = true → 4 ≤ d.bytes.length) :
    Sized d ∧ d.bytes.length ≤ f.size ∧ d.type ≠ UNIX_DATE := by
  unfold Img.content at h
  unfold Sized
  split at h
  · next h4 =>
    obtain ⟨b, hb, h⟩ := Out.bind_eq_ok h; cases h
    obtain ⟨l1, l2, -⟩ := rd_length hb
    refine ⟨by simp only; rw [if_pos h4]; exact l1, by simp only; omega, fun e => ?_⟩
    simp only at e; subst e; exact absurd h4 (by decide)
  · next h4 =>
    split at h
    · next h8 =>
      obtain ⟨b, hb, h⟩ := Out.bind_eq_ok h; cases h
      obtain ⟨l1, l2, -⟩ := rd_length hb
      refine ⟨by simp only; rw [if_neg h4, if_pos h8]; exact l1, by simp only; omega, fun e => ?_⟩
      simp only at e; subst e; exact absurd h8 (by decide)
    · next h8 =>
      split at h
      · next hs =>
        obtain ⟨s, hb, h⟩ := Out.bind_eq_ok h; cases h
        subst hs
        unfold Img.str at hb
        split at hb
        · simp only at hb
          split at hb
          · cases hb
          · next hne =>
            cases hb
            have hle := (List.takeWhile_prefix (p := fun x : UInt8 => decide (x ≠ 0)) (l := slice f.mem p.toNat (f.size - p.toNat))).length_le
            have hsl : (slice f.mem p.toNat (f.size - p.toNat)).length = f.size - p.toNat := by simp [slice]
            refine ⟨?_, ?_, fun e => nomatch e⟩
            · show if _ then _ else if _ then _ else if _ then _ else _
              rw [if_neg h4, if_neg h8, if_pos rfl]
              exact ⟨_, cPrefix_noNul _, rfl⟩
            · rw [List.length_append, List.length_singleton]
              omega
        · cases hb
      · next hs =>
        split at h
        · next hz =>
          obtain ⟨n, hn, h⟩ := Out.bind_eq_ok h
          split at h
          · cases h
          · next hn0 =>
            obtain ⟨b, hb, h⟩ := Out.bind_eq_ok h; cases h
            obtain ⟨l1, l2, l3⟩ := rd_length hb
            have hl := hv hz
            simp only at hl
            refine ⟨?_, by simp only; omega, fun e => ?_⟩
            · simp only
              rw [if_neg h4, if_neg h8, if_neg hs, if_pos hz]
              refine ⟨hl, ?_⟩
              unfold Img.i32 at hn
              obtain ⟨b4, hb4, hn⟩ := Out.bind_eq_ok hn
              obtain ⟨-, -, m3⟩ := rd_length hb4
              have : rdI32 b = n := by
                unfold rdI32
                rw [l3, slice_take _ _ _ _ (by omega), ← m3]
                simpa using hn
              rw [this, l1]; omega
            · simp only at e; subst e; exact absurd hz (by decide)
        · next hz =>
          split at h
          · cases h
          · next hf =>
            obtain ⟨b, hb, h⟩ := Out.bind_eq_ok h; cases h
            obtain ⟨l1, l2, -⟩ := rd_length hb
            have hud : t ≠ UNIX_DATE := by rintro rfl; exact hf (by decide)
            refine ⟨?_, by simp only; omega, hud⟩
            simp only
            rw [if_neg h4, if_neg h8, if_neg hs, if_neg hz, if_neg hud]
            exact ⟨by omega, by rw [l1]; omega⟩

/-- a source value: what it has to do with the file it comes from -/
def FromFile (d : Data) : Prop := (isVarsize d.type = true → 4 ≤ d.bytes.length) → Sized d ∧ d.bytes.length < 2147483648 ∧ d.type ≠ UNIX_DATE

theorem pGetData_from {f : Img} (hf : f.size < 2147483648) {x a : Int} {d : Data} (h : f.pGetData x a = .ok d) : FromFile d := by
  unfold Img.pGetData at h
  obtain ⟨c, -, h⟩ := Out.bind_eq_ok h
  split at h
  · cases h
  · intro hv
    split at h
    · obtain ⟨h1, h2, h3⟩ := content_sized h hv; exact ⟨h1, by omega, h3⟩
    · obtain ⟨w, -, h⟩ := Out.bind_eq_ok h
      obtain ⟨h1, h2, h3⟩ := content_sized h hv; exact ⟨h1, by omega, h3⟩

theorem getData_from {f : Img} (hf : f.size < 2147483648) {x : Int} {d : Data} (h : f.getData x = .ok d) : FromFile d := by
  unfold Img.getData at h
  obtain ⟨va, -, h⟩ := Out.bind_eq_ok h
  obtain ⟨c, -, h⟩ := Out.bind_eq_ok h
  split at h
  · cases h
  · intro hv
    split at h
    · obtain ⟨h1, h2, h3⟩ := content_sized h hv; exact ⟨h1, by omega, h3⟩
    · split at h
      · obtain ⟨h1, h2, h3⟩ := content_sized h hv; exact ⟨h1, by omega, h3⟩
      · split at h
        · obtain ⟨h1, h2, h3⟩ := content_sized h hv; exact ⟨h1, by omega, h3⟩
        · obtain ⟨h1, h2, h3⟩ := content_sized h hv; exact ⟨h1, by omega, h3⟩

theorem toC_ctext {s : BStr} (h : ∀ x ∈ s, x ≠ 0) : CText (toC s) := by
  intro c hc
  unfold toC at hc
  obtain ⟨b, hb, rfl⟩ := List.mem_map.1 hc
  have h0 := h b hb
  have hlt := b.toNat_lt
  have hne : b.toNat ≠ 0 := fun e => h0 (by rw [← UInt8.toNat_inj]; exact e)
  have : (Char.ofNat b.toNat).toNat = b.toNat := by
    have : ∀ n < 256, (Char.ofNat n).toNat = n := by decide +kernel
    exact this _ hlt
  rw [this]; omega

/-- the value that is stored -/
theorem asType_spec {flt : CStr → List UInt8} (hflt : ∀ s, (flt s).length = 4) {t : XBT} {d d' : Data} (hd : FromFile d) (h : asType flt t d = some d') (hl : d.bytes.length + 64 < 2147483648) :
    DataGood d' ∧ d'.type = t ∧ d'.bytes.length ≤ d.bytes.length + 31 ∧
      (d.type = t ∧ d' = d ∨ d.type ≠ t ∧ d.type = STRING ∧ (cPrefix d.bytes).length ≠ d.bytes.length ∧ ∃ w, fromString flt (toC (cPrefix d.bytes)) t 0 (d.bytes.length + 64) = .ok w ∧ w.bytes = d'.bytes) := by
  unfold asType at h
  split at h
  · next he =>
    split at h
    · cases h
    · next hv =>
      cases h
      obtain ⟨h1, h2, h3⟩ := hd fun hz => by
        rw [he] at hz
        have : ¬ d.bytes.length < 4 := fun hh => hv ⟨hz, hh⟩
        omega
      exact ⟨sized_good h1 h3 h2, he, by omega, Or.inl ⟨he, rfl⟩⟩
  · next hne =>
    split at h
    · next hs =>
      obtain ⟨hs, hud⟩ := hs
      have hd' := hd fun hz => by rw [hs] at hz; exact absurd hz (by decide)
      have hsz := hd'.1
      unfold Sized at hsz
      rw [if_neg (by rw [hs]; decide), if_neg (by rw [hs]; decide), if_pos hs] at hsz
      obtain ⟨s, hn, hb⟩ := hsz
      have hcp : cPrefix d.bytes = s := by rw [hb]; exact noNul_takeWhile [] hn
      have hlen : d.bytes.length = s.length + 1 := by rw [hb]; simp
      have hct : CText (toC s) := toC_ctext hn
      have htl : (toC s).length = s.length := by unfold toC; exact List.length_map ..
      rw [hcp] at h
      obtain ⟨w, w1, w2, w3⟩ := fromString_total hflt (s := toC s) (t := t) (wp := 0) (limit := d.bytes.length + 64) (by rw [h]; simp) (by omega)
      obtain ⟨v1, -, v3, -⟩ := fromString_spec hflt hct w1 (by omega) hl
      rw [h] at v1
      injection v1 with v1
      subst v1
      refine ⟨sized_good v3 hud (by simp only; omega), rfl, by simp only; omega, Or.inr ⟨hne, hs, by rw [hcp]; omega, w, by rw [hcp]; exact w1, rfl⟩⟩
    · cases h

end BX
