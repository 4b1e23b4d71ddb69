import Verif.Props.Append
import Verif.Model.AppendRefused
/-
Property C31: elements whose value is refused.
-/
namespace BX
open XBT Spec

theorem refused_append {c : Ctx} {m0 : Mem} {f : Img} {name : BStr} {s : CStr} {params : List (BStr × SVal)} {children : List Elem} (hu : detect s = UINT32 ∨ detect s = DOUBLE)
    (hp : params.length ≤ 32767) (hc : children.length ≤ 2147483647) (hl : aa (f.size % 16) + 13 + 8 * params.length + 4 * children.length ≤ c.limit) :
    ∃ g, appendCall c m0 f (.mk name (.text s) params children) = .ok g ∧ Ext f g ∧ g.size = aa f.size + 13 + 8 * params.length + 4 * children.length ∧
      ∀ i, i < 4 → g.mem (aa f.size + 8 + i) = m0 (aa (f.size % 16) + 8 + i) := by
  have hfa : aa (aa (f.size % 16)) = aa (f.size % 16) := aa_of_mod (aa_mod _)
  have ge := aa_ge (f.size % 16)
  obtain ⟨D, hD⟩ : ∃ D, D = f.size - f.size % 16 := ⟨_, rfl⟩
  have hD8 : D % 8 = 0 := by omega
  have ha : aa f.size = aa (f.size % 16) + D := by
    have := aa_shift hD8 (f.size % 16)
    rw [show f.size % 16 + D = f.size by omega] at this
    omega
  have hr : ∀ wp lim, fromString c.flt s (detect s) wp lim = .fail := by
    intro wp lim
    rcases hu with h | h <;> rw [h] <;> rfl
  have ht : ∀ wp, refusedTail s (detect s) wp = (wp, wp, []) := by
    intro wp
    rcases hu with h | h <;> rw [h] <;> rfl
  have hh : (headBytes (c.tags.find (some name)) params.length children.length).length = 8 := by
    unfold headBytes
    simp [leN_length, le32_length]
  unfold appendCall
  simp only
  rw [hr]
  simp only
  unfold writeRefused
  rw [if_neg (by omega)]
  simp only
  rw [hfa, put_eq (by rw [hh]; omega), Out.ok_bind, put_eq (by simp only [List.length_cons, List.length_nil]; omega), Out.ok_bind, ht]
  simp only
  rw [put_eq (by simp only [List.length_nil]; omega), Out.ok_bind]
  simp only [Out.pure_eq, Out.ok_bind]
  refine ⟨_, rfl, ⟨by simp only; omega, fun a h => memPut_frame _ _ _ _ (by omega)⟩, by simp only; omega, ?_⟩
  intro i hi
  simp only
  rw [memPut, if_pos (by rw [slice_length]; omega), List.getD_eq_getElem?_getD, List.getElem?_eq_getElem (by rw [slice_length]; omega), slice_getElem, Option.getD_some,
    show f.size % 16 + (aa f.size + 8 + i - f.size) = aa (f.size % 16) + 8 + i by omega, memPut_frame _ _ _ _ (by simp only [List.length_nil]; omega), memPut_frame _ _ _ _ (by omega), memPut_frame _ _ _ _ (by rw [hh]; omega)]

/-- the length of the new element is the number that was in the buffer of the creator -/
theorem refused_length {f g h : Img} {m0 : Mem} {n : Nat} (hx : Ext g h) (hg : g.size = aa f.size + 13 + n) (hm : ∀ i, i < 4 → g.mem (aa f.size + 8 + i) = m0 (aa (f.size % 16) + 8 + i)) :
    h.length (aa f.size : Nat) = .ok (rdI32 (slice m0 (aa (f.size % 16) + 8) 4)) := by
  have hs := hx.size
  unfold Img.length Img.i32 Img.rd
  rw [if_pos (by omega)]
  have : slice h.mem (((aa f.size : Nat) : Int) + 8).toNat 4 = slice m0 (aa (f.size % 16) + 8) 4 := by
    refine List.ext_getElem (by rw [slice_length, slice_length]) fun i h1 h2 => ?_
    rw [slice_length] at h1
    rw [slice_getElem, slice_getElem, hx.mem _ (by omega), ← hm i h1]
    congr 1
  rw [this]
  rfl

/-- C31 is false of elements with a refused value (a number from 2147483648 to 4294967295, or a decimal number that is stored as a `double`): for every file with a marked node
and every such element `Append` reports success, and when the buffer of the creator contained at the place of the length a number that is bigger than what is behind, no element
appended later by whatever calls is shown, as long as the file does not get that long. -/
theorem C31_refused_false (c : Ctx) (m0 : Mem) (f : Img) (x L : Int) (ys : List Int) (hm : Marked f x ys) (hL : f.length 0 = .ok L) (hLs : aaI L = (aa f.size : Nat))
    (name : BStr) (s : CStr) (params : List (BStr × SVal)) (children : List Elem) (hu : detect s = UINT32 ∨ detect s = DOUBLE)
    (hp : params.length ≤ 32767) (hc : children.length ≤ 2147483647) (hl : aa (f.size % 16) + 13 + 8 * params.length + 4 * children.length ≤ c.limit) :
    ∃ g, appendCall c m0 f (.mk name (.text s) params children) = .ok g ∧
      ∀ h, Ext g h → (h.size : Int) < (aa f.size : Nat) + rdI32 (slice m0 (aa (f.size % 16) + 8) 4) → Lists h x 0 ys := by
  obtain ⟨g, g1, g2, g3, g4⟩ := refused_append (m0 := m0) (f := f) (name := name) hu hp hc hl
  refine ⟨g, g1, fun h hx hs => ?_⟩
  have hlen := refused_length (n := 8 * params.length + 4 * children.length) hx (by omega) g4
  have hm' := hm.ext (g2.trans hx)
  obtain ⟨y, y1, y2⟩ := hm'.marker
  have hsz := hx.size
  have hd : h.getNextChild x ys.length = .ok (none, -L) := by
    rw [Img.getNextChild_marker (by omega) y1 y2 ((g2.trans hx).length _ _ hL)]
    unfold Img.appendedAt
    rw [Int.neg_neg, hLs, if_neg (by omega), hlen]
    simp only [Out.ok_bind]
    rw [if_pos (by omega)]
    rfl
  have := hm'.lists (.done _ _ hd) ys.length (Nat.le_refl _)
  simpa using this

/-- C31 is false of them in another way: when the buffer contained zeros there, iterating over the children never ends, in this and every longer file. -/
theorem C31_endless_false (c : Ctx) (m0 : Mem) (f : Img) (x L : Int) (ys : List Int) (hm : Marked f x ys) (hL : f.length 0 = .ok L) (hLs : aaI L = (aa f.size : Nat)) (hL0 : 0 < L)
    (name : BStr) (s : CStr) (params : List (BStr × SVal)) (children : List Elem) (hu : detect s = UINT32 ∨ detect s = DOUBLE)
    (hp : params.length ≤ 32767) (hc : children.length ≤ 2147483647) (hl : aa (f.size % 16) + 13 + 8 * params.length + 4 * children.length ≤ c.limit)
    (hz : rdI32 (slice m0 (aa (f.size % 16) + 8) 4) = 0) :
    ∃ g, appendCall c m0 f (.mk name (.text s) params children) = .ok g ∧ ∀ h, Ext g h → ∀ zs, ¬ Lists h x 0 zs := by
  obtain ⟨g, g1, g2, g3, g4⟩ := refused_append (m0 := m0) (f := f) (name := name) hu hp hc hl
  refine ⟨g, g1, fun h hx => ?_⟩
  have hlen := refused_length (n := 8 * params.length + 4 * children.length) hx (by omega) g4
  rw [hz] at hlen
  have hm' := hm.ext (g2.trans hx)
  obtain ⟨y, y1, y2⟩ := hm'.marker
  have hsz := hx.size
  have hge := aa_ge f.size
  have hap : ∀ i : Int, aaI (-i) = (aa f.size : Nat) → h.appendedAt i = .ok (some (aa f.size : Nat), -(aa f.size : Nat)) := by
    intro i hi
    unfold Img.appendedAt
    rw [hi, if_neg (by omega), hlen]
    simp only [Out.ok_bind]
    rw [if_neg (by omega), Int.add_zero, aaI_cast, aa_of_mod (aa_mod _)]
    rfl
  have hpos : (0 : Int) < (aa f.size : Nat) := by rw [← hLs]; unfold aaI; omega
  have hloop : ∀ i zs, Lists h x i zs → i ≠ -((aa f.size : Nat) : Int) := by
    intro i zs hl'
    induction hl' with
    | done i i' h1 =>
      rintro rfl
      rw [Img.getNextChild_neg hm'.count (by omega) (by omega), hap _ (by rw [Int.neg_neg, aaI_cast, aa_of_mod (aa_mod _)])] at h1
      cases h1
    | next i y i' ys h1 _ ih =>
      rintro rfl
      rw [Img.getNextChild_neg hm'.count (by omega) (by omega), hap _ (by rw [Int.neg_neg, aaI_cast, aa_of_mod (aa_mod _)])] at h1
      cases h1
      exact ih rfl
  have hrun : ∀ (k : Nat) zs, k ≤ ys.length → ¬ Lists h x ((ys.length - k : Nat) : Int) zs := by
    intro k
    induction k with
    | zero =>
      intro zs _ hl'
      have h1 := Img.getNextChild_marker (i := (ys.length : Int)) (by omega) y1 y2 ((g2.trans hx).length _ _ hL)
      rw [hap _ (by rw [Int.neg_neg]; exact hLs)] at h1
      rw [Nat.sub_zero] at hl'
      cases hl' with
      | done _ _ h2 => rw [h1] at h2; cases h2
      | next _ _ _ _ h2 h3 =>
        rw [h1] at h2
        cases h2
        exact hloop _ _ h3 rfl
    | succ k ih =>
      intro zs hk hl'
      obtain ⟨h1, nm, h2, h3⟩ := hm'.child (ys.length - (k + 1)) (by omega)
      have h4 := Img.getNextChild_child (by omega) h1 h2 h3
      cases hl' with
      | done _ _ h5 => rw [h4] at h5; cases h5
      | next _ _ _ _ h5 h6 =>
        rw [h4] at h5
        cases h5
        rw [show ((ys.length - (k + 1) : Nat) : Int) + 1 = ((ys.length - k : Nat) : Int) by omega] at h6
        exact ih _ (by omega) h6
  intro zs hz'
  exact hrun ys.length zs (Nat.le_refl _) (by simpa using hz')

/-- such texts, and a log where it happens: an entry with 3000000000 and then one with `third` are appended; with the buffer as `Make_xb` left it neither of them is found, and with
an empty buffer the first one again and again -/
example : detect "3000000000".toList = UINT32 ∧ detect "12345678.12345678".toList = DOUBLE ∧
    (texts do let f ← exLogFile; let g ← appendCall exCtx f.mem f (exEntry "3000000000"); appendCall exCtx f.mem g (exEntry "third")) = .ok [some (b8 "first")] ∧
    (texts do let f ← exLogFile; let g ← appendCall exCtx (fun _ => 0) f (exEntry "3000000000"); appendCall exCtx (fun _ => 0) g (exEntry "third")) = .ok (some (b8 "first") :: List.replicate 9 none) := by
  decide +kernel

end BX
