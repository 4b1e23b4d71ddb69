import Verif.Lemmas.Getters
import Verif.Props.Copy
/-
C72: the integer getters of the reader. C73: the visits of all items below an item.
-/
namespace BX
open XBT Spec

/-! ### C72 -/

/-- C72, as far as it is true: the reader shows `d` as the value of an item. `getInt` gives the integer stored in it or written at the
beginning of its text, and "no value" for a value of another type. -/
theorem C72_item_partial (f : Img) (x : Int) (hx : x % 4 = 0) (d : Data) (hd : f.getData x = .ok d) :
    (∀ v, isI32 v → Stores32 d v ∨ Writes d v → f.getInt x = .ok v) ∧ (d.type ≠ INT32 → d.type ≠ STRING → f.getInt x = .ok INT32_NULL) := by
  obtain ⟨va, h1, h2, h3⟩ := getData_form hd
  constructor
  · rintro v hv (⟨rfl, -⟩ | ⟨w, rfl, hw⟩)
    · simp only at h2 h3
      unfold Img.getInt
      rw [if_neg (by omega), h1, Out.ok_bind, h2, Out.ok_bind, if_pos rfl]
      exact content_int32 h3 hv
    · simp only at h2 h3
      unfold Img.getInt
      rw [if_neg (by omega), h1, Out.ok_bind, h2, Out.ok_bind, if_neg (by decide), if_pos rfl, content_text (p := va + 1) h3, Out.ok_bind]
      exact numeral_atoi hw hv
  · intro n1 n2
    have c1 : ¬ d.type.code = INT32.code := fun h => n1 (by have := congrArg ofCode h; rw [ofCode_code, ofCode_code] at this; exact Option.some.inj this)
    have c2 : ¬ d.type.code = STRING.code := fun h => n2 (by have := congrArg ofCode h; rw [ofCode_code, ofCode_code] at this; exact Option.some.inj this)
    unfold Img.getInt
    rw [if_neg (by omega), h1, Out.ok_bind, h2, Out.ok_bind, if_neg c1, if_neg c2]
    rfl

/-- … and so does `getInt` of an attribute that the reader shows -/
theorem C72_attr_partial (f : Img) (x p : Int) (d : Data) (hd : f.pGetData x p = .ok d) :
    (∀ v, isI32 v → Stores32 d v ∨ Writes d v → f.pGetInt x (some p) = .ok v) ∧ (d.type ≠ INT32 → d.type ≠ STRING → f.pGetInt x (some p) = .ok INT32_NULL) := by
  obtain ⟨h1, h2, h3⟩ := pGetData_form hd
  constructor
  · rintro v hv (⟨rfl, -⟩ | ⟨w, rfl, hw⟩)
    · have h2 := h2 (by decide : is4 INT32 = true)
      simp only at h1 h2
      unfold Img.pGetInt
      simp only
      rw [h1, Out.ok_bind, if_pos rfl]
      exact content_int32 h2 hv
    · obtain ⟨r, h3, h4⟩ := h3 (by decide : is4 STRING = false)
      simp only at h1 h4
      unfold Img.pGetInt
      simp only
      rw [h1, Out.ok_bind, if_neg (by decide), if_pos rfl, h3, Out.ok_bind, content_text h4, Out.ok_bind]
      exact numeral_atoi hw hv
  · intro n1 n2
    have c1 : ¬ d.type.code = INT32.code := fun h => n1 (by have := congrArg ofCode h; rw [ofCode_code, ofCode_code] at this; exact Option.some.inj this)
    have c2 : ¬ d.type.code = STRING.code := fun h => n2 (by have := congrArg ofCode h; rw [ofCode_code, ofCode_code] at this; exact Option.some.inj this)
    unfold Img.pGetInt
    simp only
    rw [h1, Out.ok_bind, if_neg c1, if_neg c2]
    rfl

/-- The pointers to integers stored in items (32-bit and 64-bit ones) and in attributes (32-bit ones), got after any history of calls, give
the integer, now and after any further calls, for any files. -/
theorem C72_pointer_partial (f : Img) (s : Statics) (v : Int) :
    (∀ x d, x % 4 = 0 → f.getData x = .ok d → Stores32 d v → ∃ q, f.getIntPtr s x = .ok (s, some q) ∧ ∀ s', Calls s s' → q.read32 f s' = .ok v) ∧
    (∀ x d, x % 4 = 0 → f.getData x = .ok d → Stores64 d v → ∃ q, f.getInt64Ptr s x = .ok (s, some q) ∧ ∀ s', Calls s s' → q.read64 f s' = .ok v) ∧
    (∀ x p d, f.pGetData x p = .ok d → Stores32 d v → ∃ q, f.pGetIntPtr s x (some p) = .ok (s, some q) ∧ ∀ s', Calls s s' → q.read32 f s' = .ok v) := by
  refine ⟨?_, ?_, ?_⟩
  · rintro x d hx hd ⟨rfl, hv⟩
    obtain ⟨va, h1, h2, h3⟩ := getData_form hd
    simp only at h2 h3
    refine ⟨.file (aaI (va + 1)), ?_, fun s' _ => content_int32 h3 hv⟩
    unfold Img.getIntPtr
    rw [if_neg (by omega), h1, Out.ok_bind, h2, Out.ok_bind, if_pos rfl]
    rfl
  · rintro x d hx hd ⟨rfl, hv⟩
    obtain ⟨va, h1, h2, h3⟩ := getData_form hd
    simp only at h2 h3
    refine ⟨.file (aa8I (va + 1)), ?_, fun s' _ => content_int64 h3 hv s'⟩
    unfold Img.getInt64Ptr
    rw [if_neg (by omega), h1, Out.ok_bind, h2, Out.ok_bind, if_pos rfl]
    rfl
  · rintro x p d hd ⟨rfl, hv⟩
    obtain ⟨h1, h2, -⟩ := pGetData_form hd
    have h2 := h2 (by decide : is4 INT32 = true)
    simp only at h1 h2
    refine ⟨.file (p + 4), ?_, fun s' _ => content_int32 h2 hv⟩
    unfold Img.pGetIntPtr
    simp only
    rw [h1, Out.ok_bind, if_pos rfl]
    rfl

/-- The pointers got for texts give the integer at the beginning of the text, until the next call: for attributes (32 and 64 bits), for the
64-bit number of an item and for the 32-bit number of the first item that is asked for one. -/
theorem C72_text_partial (f : Img) (s : Statics) (v : Int) :
    (∀ x p d, isI32 v → f.pGetData x p = .ok d → Writes d v → ∃ s' q, f.pGetIntPtr s x (some p) = .ok (s', some q) ∧ q.read32 f s' = .ok v) ∧
    (∀ x p d, -9223372036854775808 < v ∧ v < 9223372036854775808 → f.pGetData x p = .ok d → Writes d v → ∃ s' q, f.pGetInt64Ptr s x (some p) = .ok (s', some q) ∧ q.read64 f s' = .ok v) ∧
    (∀ x d, -9223372036854775808 < v ∧ v < 9223372036854775808 → x % 4 = 0 → f.getData x = .ok d → Writes d v → ∃ s' q, f.getInt64Ptr s x = .ok (s', some q) ∧ q.read64 f s' = .ok v) ∧
    (∀ x d, s.item32 = none → isI32 v → x % 4 = 0 → f.getData x = .ok d → Writes d v → ∃ s' q, f.getIntPtr s x = .ok (s', some q) ∧ q.read32 f s' = .ok v) := by
  refine ⟨?_, ?_, ?_, ?_⟩
  · rintro x p d hv hd ⟨w, rfl, hw⟩
    obtain ⟨h1, -, h3⟩ := pGetData_form hd
    obtain ⟨r, h3, h4⟩ := h3 (by decide : is4 STRING = false)
    simp only at h1 h4
    refine ⟨{ s with s32 := v }, .s32, ?_, rfl⟩
    unfold Img.pGetIntPtr
    simp only
    rw [h1, Out.ok_bind, if_neg (by decide), if_pos rfl, h3, Out.ok_bind, content_text h4, Out.ok_bind, numeral_atoi hw hv]
    rfl
  · rintro x p d hv hd ⟨w, rfl, hw⟩
    obtain ⟨h1, -, h3⟩ := pGetData_form hd
    obtain ⟨r, h3, h4⟩ := h3 (by decide : is4 STRING = false)
    obtain ⟨r', e⟩ := numeral_scan hw hv
    simp only at h1 h4
    refine ⟨{ s with s64 := v }, .s64, ?_, rfl⟩
    unfold Img.pGetInt64Ptr
    simp only
    rw [h1, Out.ok_bind, if_neg (by decide), if_pos rfl, h3, Out.ok_bind, content_text h4, Out.ok_bind, e]
    rfl
  · rintro x d hv hx hd ⟨w, rfl, hw⟩
    obtain ⟨va, h1, h2, h3⟩ := getData_form hd
    obtain ⟨r', e⟩ := numeral_scan hw hv
    simp only at h2 h3
    refine ⟨{ s with item64 := v }, .item64, ?_, rfl⟩
    unfold Img.getInt64Ptr
    rw [if_neg (by omega), h1, Out.ok_bind, h2, Out.ok_bind, if_neg (by decide), if_pos rfl, content_text (p := va + 1) h3, Out.ok_bind, e]
    rfl
  · rintro x d hs hv hx hd ⟨w, rfl, hw⟩
    obtain ⟨va, h1, h2, h3⟩ := getData_form hd
    simp only at h2 h3
    refine ⟨{ s with item32 := some v }, .item32, ?_, rfl⟩
    unfold Img.getIntPtr
    rw [if_neg (by omega), h1, Out.ok_bind, h2, Out.ok_bind, if_neg (by decide), if_pos rfl, hs]
    simp only
    rw [content_text (p := va + 1) h3, Out.ok_bind, numeral_atoi hw hv]
    rfl

/-- A text that does not start with a number gives no pointer to a 64-bit number, and the earlier numbers stay. -/
theorem C72_refused (f : Img) (s : Statics) (w : BStr) (hw : ∀ v, ¬ StartsNum (toC w) v) :
    (∀ x p, f.pGetData x p = .ok ⟨STRING, w ++ [0]⟩ → f.pGetInt64Ptr s x (some p) = .ok (s, none)) ∧
    (∀ x, x % 4 = 0 → f.getData x = .ok ⟨STRING, w ++ [0]⟩ → f.getInt64Ptr s x = .ok (s, none)) := by
  refine ⟨fun x p hd => ?_, fun x hx hd => ?_⟩
  · obtain ⟨h1, -, h3⟩ := pGetData_form hd
    obtain ⟨r, h3, h4⟩ := h3 (by decide : is4 STRING = false)
    simp only at h1 h4
    unfold Img.pGetInt64Ptr
    simp only
    rw [h1, Out.ok_bind, if_neg (by decide), if_pos rfl, h3, Out.ok_bind, content_text h4, Out.ok_bind, nonum_scan hw]
    rfl
  · obtain ⟨va, h1, h2, h3⟩ := getData_form hd
    simp only at h2 h3
    unfold Img.getInt64Ptr
    rw [if_neg (by omega), h1, Out.ok_bind, h2, Out.ok_bind, if_neg (by decide), if_pos rfl, content_text (p := va + 1) h3, Out.ok_bind, nonum_scan hw]
    rfl

/-- the hypothesis of `C72_refused` is met -/
example : ∀ v, ¬ StartsNum (toC (b8 "a1")) v := by
  rintro v ⟨s, neg, ds, rest, h1, ⟨h2, h3⟩, -, h5, -⟩
  rw [show toC (b8 "a1") = ['a', '1'] by decide] at h5
  cases s with
  | cons c cs =>
    have : 'a' = c := by simpa using congrArg List.head? h5
    exact absurd (h1 c (by simp)) (by rw [← this]; decide)
  | nil =>
    cases neg with
    | true => simp at h5
    | false =>
      cases ds with
      | nil => exact h2 rfl
      | cons d ds =>
        have : 'a' = d := by simpa using congrArg List.head? h5
        exact absurd (h3 d (by simp)) (by rw [← this]; decide)

/-- The full claim is false: once `getIntPtr` was asked for the integer in the text of an item, it gives that integer for the text of every
item of every file, for ever. -/
theorem C72_first_false (f : Img) (s s1 : Statics) (x : Int) (d : Data) (q : IPtr) (u : Int) (hx : x % 4 = 0) (hd : f.getData x = .ok d) (ht : d.type = STRING) (h : f.getIntPtr s x = .ok (s1, some q)) (hu : q.read32 f s1 = .ok u)
    (s2 : Statics) (hc : Calls s1 s2) (g : Img) (y : Int) (e : Data) (hy : y % 4 = 0) (he : g.getData y = .ok e) (hte : e.type = STRING) :
    ∃ q', g.getIntPtr s2 y = .ok (s2, some q') ∧ ∀ s3, Calls s2 s3 → q'.read32 g s3 = .ok u := by
  obtain ⟨va, h1, h2, -⟩ := getData_form hd
  obtain ⟨vb, k1, k2, -⟩ := getData_form he
  rw [ht] at h2
  rw [hte] at k2
  unfold Img.getIntPtr at h
  rw [if_neg (by omega), h1, Out.ok_bind, h2, Out.ok_bind, if_neg (by decide), if_pos rfl] at h
  have key : s1.item32 = some u := by
    split at h
    · rename_i w hw
      simp only [Out.pure_eq, Out.ok.injEq, Prod.mk.injEq, Option.some.injEq] at h
      obtain ⟨rfl, rfl⟩ := h
      unfold IPtr.read32 at hu
      simp only [hw, Out.pure_eq, Out.ok.injEq] at hu
      rw [hw, hu]
    · obtain ⟨w, -, h⟩ := Out.bind_eq_ok h
      obtain ⟨z, -, h⟩ := Out.bind_eq_ok h
      simp only [Out.pure_eq, Out.ok.injEq, Prod.mk.injEq, Option.some.injEq] at h
      obtain ⟨rfl, rfl⟩ := h
      unfold IPtr.read32 at hu
      simp only [Out.pure_eq, Out.ok.injEq] at hu
      rw [hu]
  have k3 := calls_item32 hc key
  refine ⟨.item32, ?_, fun s3 hc' => ?_⟩
  · unfold Img.getIntPtr
    rw [if_neg (by omega), k1, Out.ok_bind, k2, Out.ok_bind, if_neg (by decide), if_pos rfl, k3]
    rfl
  · unfold IPtr.read32
    simp only [calls_item32 hc' k3]
    rfl

/-- The full claim is false: the pointer got for the text of an attribute gives the integer of the last text asked for, not its own. -/
theorem C72_shared_false (f : Img) (s : Statics) (x p y r : Int) (d e : Data) (v u : Int) (hv : isI32 v) (hu : isI32 u) (hd : f.pGetData x p = .ok d) (hdv : Writes d v)
    (he : f.pGetData y r = .ok e) (heu : Writes e u) :
    ∃ s1 s2 q, f.pGetIntPtr s x (some p) = .ok (s1, some q) ∧ q.read32 f s1 = .ok v ∧ f.pGetIntPtr s1 y (some r) = .ok (s2, some q) ∧ q.read32 f s2 = .ok u := by
  obtain ⟨w, rfl, hw⟩ := hdv
  obtain ⟨z, rfl, hz⟩ := heu
  obtain ⟨h1, -, h3⟩ := pGetData_form hd
  obtain ⟨a, h3, h4⟩ := h3 (by decide : is4 STRING = false)
  obtain ⟨k1, -, k3⟩ := pGetData_form he
  obtain ⟨b, k3, k4⟩ := k3 (by decide : is4 STRING = false)
  simp only at h1 h4 k1 k4
  refine ⟨{ s with s32 := v }, { s with s32 := u }, .s32, ?_, rfl, ?_, rfl⟩
  · unfold Img.pGetIntPtr
    simp only
    rw [h1, Out.ok_bind, if_neg (by decide), if_pos rfl, h3, Out.ok_bind, content_text h4, Out.ok_bind, numeral_atoi hw hv]
    rfl
  · unfold Img.pGetIntPtr
    simp only
    rw [k1, Out.ok_bind, if_neg (by decide), if_pos rfl, k3, Out.ok_bind, content_text k4, Out.ok_bind, numeral_atoi hz hu]
    rfl

/-- The full claim is false: for an attribute stored as a 64-bit number the pointer leads to the place where its position is stored, so what
it gives is made of that position (and the next description, or what follows it) whatever the number is. -/
theorem C72_wide_false (f : Img) (s s' : Statics) (x p : Int) (d : Data) (hd : f.pGetData x p = .ok d) (ht : d.type = INT64) (v : Int) :
    ∃ q r, f.pData p = .ok r ∧ f.pGetInt64Ptr s x (some p) = .ok (s, some q) ∧ (q.read64 f s' = .ok v → v % 4294967296 = r % 4294967296) := by
  obtain ⟨h1, -, h3⟩ := pGetData_form hd
  rw [ht] at h1 h3
  obtain ⟨r, h3, -⟩ := h3 (by decide)
  refine ⟨.file (p + 4), r, h3, ?_, fun hq => ?_⟩
  · unfold Img.pGetInt64Ptr
    simp only
    rw [h1, Out.ok_bind, if_pos rfl]
    rfl
  · unfold IPtr.read64 at hq
    simp only at hq
    obtain ⟨l, l1, hq⟩ := Out.bind_eq_ok hq
    unfold Img.pData Img.i32 at h3
    obtain ⟨k, k1, h3⟩ := Out.bind_eq_ok h3
    simp only [Out.pure_eq, Out.ok.injEq] at hq h3
    unfold Img.rd at l1 k1
    split at l1
    · split at k1
      · simp only [Out.ok.injEq] at l1 k1
        subst l1 k1 hq h3
        rw [show (8 : Nat) = 4 + 4 from rfl, slice_add, rdN_app]
        have e1 := rdN_below (slice f.mem (p + 4).toNat 4)
        have e2 := rdN_below (slice f.mem ((p + 4).toNat + 4) 4)
        rw [slice_length] at e1 e2 ⊢
        generalize rdN (slice f.mem (p + 4).toNat 4) = a at *
        generalize rdN (slice f.mem ((p + 4).toNat + 4) 4) = b at *
        unfold ofU
        split <;> split <;> omega
      · exact absurd k1 (by simp)
    · exact absurd l1 (by simp)

/-! ### a file -/

/-- `<r a="5000000000" t="12 x" u="-3z"><n>-134217728</n><s>7 x</s><s>8 y<e/></s><b>6000000000</b></r>`, the attribute `a` as a 64-bit number -/
def numSource : Elem :=
  .mk (b8 "r") .none [(b8 "a", .bin INT64 (le64 5000000000)), (b8 "t", .text "12 x".toList), (b8 "u", .text "-3z".toList)]
    [.mk (b8 "n") (.text "-134217728".toList) [] [], .mk (b8 "s") (.text "7 x".toList) [] [], .mk (b8 "s") (.text "8 y".toList) [] [.mk (b8 "e") .none [] []], .mk (b8 "b") (.text "6000000000".toList) [] []]

def numFile : Img := fileOf numSource

/-- the reader shows these values -/
theorem num_shows : numFile.getData 308 = .ok ⟨INT32, le32 (-134217728)⟩ ∧ numFile.getData 328 = .ok ⟨STRING, b8 "7 x" ++ [0]⟩ ∧ numFile.getData 348 = .ok ⟨STRING, b8 "8 y" ++ [0]⟩ ∧
    numFile.getData 388 = .ok ⟨INT64, le64 6000000000⟩ ∧ numFile.getData 372 = .ok ⟨NULL, []⟩ ∧ numFile.pGetData 232 244 = .ok ⟨INT64, le64 5000000000⟩ ∧ numFile.pGetData 232 252 = .ok ⟨STRING, b8 "12 x" ++ [0]⟩ ∧
    numFile.pGetData 232 260 = .ok ⟨STRING, b8 "-3z" ++ [0]⟩ := by decide +kernel

theorem writes_of {w : BStr} (v : Int) (neg : Bool) (ds rest : CStr) (h : toC w = (if neg then ['-'] else []) ++ ds ++ rest) (h1 : Digits ds) (h2 : NoDigit rest) (h3 : v = if neg then -(digitsValue ds : Int) else digitsValue ds) :
    Writes ⟨STRING, w ++ [0]⟩ v := ⟨w, rfl, [], neg, ds, rest, by intro c hc; simp at hc, h1, h2, by rw [h]; rfl, h3⟩

theorem num_7 : Writes ⟨STRING, b8 "7 x" ++ [0]⟩ 7 := writes_of 7 false "7".toList " x".toList (by decide +kernel) (by decide) (by decide) (by decide)
theorem num_8 : Writes ⟨STRING, b8 "8 y" ++ [0]⟩ 8 := writes_of 8 false "8".toList " y".toList (by decide +kernel) (by decide) (by decide) (by decide)
theorem num_12 : Writes ⟨STRING, b8 "12 x" ++ [0]⟩ 12 := writes_of 12 false "12".toList " x".toList (by decide +kernel) (by decide) (by decide) (by decide)
theorem num_3 : Writes ⟨STRING, b8 "-3z" ++ [0]⟩ (-3) := writes_of (-3) true "3".toList "z".toList (by decide +kernel) (by decide) (by decide) (by decide)

example : numFile.getInt 328 = .ok 7 ∧ numFile.getInt 348 = .ok 8 ∧ numFile.getInt 388 = .ok INT32_NULL :=
  ⟨(C72_item_partial numFile 328 (by decide) _ num_shows.2.1).1 7 (by decide) (.inr num_7), (C72_item_partial numFile 348 (by decide) _ num_shows.2.2.1).1 8 (by decide) (.inr num_8),
    (C72_item_partial numFile 388 (by decide) _ num_shows.2.2.2.1).2 (by decide) (by decide)⟩

example : numFile.pGetInt 232 (some 252) = .ok 12 ∧ numFile.pGetInt 232 (some 260) = .ok (-3) :=
  ⟨(C72_attr_partial numFile 232 252 _ num_shows.2.2.2.2.2.2.1).1 12 (by decide) (.inr num_12), (C72_attr_partial numFile 232 260 _ num_shows.2.2.2.2.2.2.2).1 (-3) (by decide) (.inr num_3)⟩

example (s : Statics) : ∃ q, numFile.getInt64Ptr s 388 = .ok (s, some q) ∧ ∀ s', Calls s s' → q.read64 numFile s' = .ok 6000000000 :=
  (C72_pointer_partial numFile s 6000000000).2.1 388 _ (by decide) num_shows.2.2.2.1 ⟨rfl, by decide⟩

example (s : Statics) : ∃ s' q, numFile.pGetInt64Ptr s 232 (some 260) = .ok (s', some q) ∧ q.read64 numFile s' = .ok (-3) :=
  (C72_text_partial numFile s (-3)).2.1 232 260 _ (by decide) num_shows.2.2.2.2.2.2.2 num_3

/-- … so the second item `s`, whose text says 8, is 7 after the first one was asked for, in every later state -/
example : ∃ s1 q, numFile.getIntPtr {} 328 = .ok (s1, some q) ∧ ∀ s2, Calls s1 s2 → ∃ q', numFile.getIntPtr s2 348 = .ok (s2, some q') ∧ q'.read32 numFile s2 = .ok 7 := by
  obtain ⟨s1, q, h1, h2⟩ := (C72_text_partial numFile {} 7).2.2.2 328 _ rfl (by decide) (by decide) num_shows.2.1 num_7
  refine ⟨s1, q, h1, fun s2 hc => ?_⟩
  obtain ⟨q', k1, k2⟩ := C72_first_false numFile {} s1 328 _ q 7 (by decide) num_shows.2.1 rfl h1 h2 s2 hc numFile 348 _ (by decide) num_shows.2.2.1 rfl
  exact ⟨q', k1, k2 s2 (.none _)⟩

example (s : Statics) : ∃ s1 s2 q, numFile.pGetIntPtr s 232 (some 252) = .ok (s1, some q) ∧ q.read32 numFile s1 = .ok 12 ∧ numFile.pGetIntPtr s1 232 (some 260) = .ok (s2, some q) ∧ q.read32 numFile s2 = .ok (-3) :=
  C72_shared_false numFile s 232 252 232 260 _ _ 12 (-3) (by decide) (by decide) num_shows.2.2.2.2.2.2.1 num_12 num_shows.2.2.2.2.2.2.2 num_3

/-- The full claim is false: a 64-bit attribute is 5000000000 and `getInt64Ptr` gives 562954248388664 (56, the position of the number, and
the name and type of the next attribute). -/
theorem C72_wide_number_false : numFile.pGetData 232 244 = .ok ⟨INT64, le64 5000000000⟩ ∧ numFile.pData 244 = .ok 56 ∧ numFile.pGetInt64Ptr {} 232 (some 244) = .ok ({}, some (.file 248)) ∧
    (IPtr.file 248).read64 numFile {} = .ok 562954248388664 := by decide +kernel

/-- The full claim is false: an item that stores the integer -134217728 cannot be told from an item without a value. -/
theorem C72_null_false : numFile.getData 308 = .ok ⟨INT32, le32 (-134217728)⟩ ∧ numFile.getData 372 = .ok ⟨NULL, []⟩ ∧ numFile.getInt 308 = numFile.getInt 372 := by decide +kernel

/-! ### C73 -/

/-- C73: the reader shows the tree `t` of items. `ForAllChildrenRecursively` calls the function once for each item below the root of
the tree, with its depth, each item before the items below it; it needs as many nested calls as the tree has levels. -/
theorem C73_preorder (f : Img) (t : XTree) (h : ItemTree f t) (deep fuel : Nat) (hf : t.levels ≤ fuel) :
    ∃ l, f.forAll fuel t.item deep = .ok l ∧ l.map (fun v => (v.item, v.deep)) = t.pre deep := forAll_tree t fuel deep h hf

/-- … `ForAllChildrenRecursively_PostOrder` calls it once for each item, after the items below it -/
theorem C73_postorder (f : Img) (t : XTree) (h : ItemTree f t) (deep fuel : Nat) (hf : t.levels ≤ fuel) :
    ∃ l, f.forAllPost fuel t.item deep = .ok l ∧ l.map (fun v => (v.item, v.deep)) = t.post deep := forAllPost_tree t fuel deep h hf

/-- … `ForAllChildrenRecursively_PostOrderA`, called with an array of `XML_MAX_DEEP` (1024) items, does the same, and at each call the array
starts with the items above the item, from the root of the tree, as far as they fit. -/
theorem C73_above (f : Img) (t : XTree) (h : ItemTree f t) (A : List Int) (hA : A.length = 1024) (fuel : Nat) (hf : t.levels ≤ fuel) :
    ∃ l B, f.forAllPostA fuel t.item 0 A = .ok (l, B) ∧ l.map (fun v => (v.item, v.deep)) = t.post 0 ∧
      l.map (fun v => (v.item, v.above.take (v.deep + 1))) = (t.paths []).map fun q => (q.1, q.2.take 1024) := by
  obtain ⟨l, B, h1, h2, h3, -⟩ := forAllPostA_tree t fuel [] A h hf ⟨hA, by simp⟩
  exact ⟨l, B, h1, h2, h3⟩

/-- The path of each item ends with the item it is a child of and starts with the root: for each item below the root of `t` at depth
`d` the path has `d + 1` items. -/
theorem C73_paths : ∀ (t : XTree), (t.paths []).map (fun q => (q.1, q.2.length - 1)) = t.post 0 := by
  intro t
  exact paths_depth t []

/-- the items of the file below `<r>` -/
def numTree : XTree := .mk 232 [.mk 308 [], .mk 328 [], .mk 348 [.mk 372 []], .mk 388 []]

theorem num_tree : ItemTree numFile numTree := by
  have key : (numFile.childcount 232 = .ok 4 ∧ numFile.getChildByIndex 232 0 = .ok (some 308) ∧ numFile.getChildByIndex 232 1 = .ok (some 328) ∧ numFile.getChildByIndex 232 2 = .ok (some 348) ∧
    numFile.getChildByIndex 232 3 = .ok (some 388)) ∧ numFile.childcount 308 = .ok 0 ∧ numFile.childcount 328 = .ok 0 ∧ numFile.childcount 348 = .ok 1 ∧ numFile.getChildByIndex 348 0 = .ok (some 372) ∧
    numFile.childcount 372 = .ok 0 ∧ numFile.childcount 388 = .ok 0 := by decide +kernel
  obtain ⟨⟨a1, a2, a3, a4, a5⟩, b1, b2, b3, b4, b5, b6⟩ := key
  unfold numTree ItemTree ItemTrees ItemTrees ItemTrees ItemTrees ItemTrees ItemTree ItemTrees ItemTrees ItemTree ItemTrees
  exact ⟨a1, a2, ⟨b1, trivial⟩, a3, ⟨b2, trivial⟩, a4, ⟨b3, b4, ⟨b5, trivial⟩, trivial⟩, a5, ⟨b6, trivial⟩, trivial⟩

example : ∃ l, numFile.forAll 100 232 0 = .ok l ∧ l.map (fun v => (v.item, v.deep)) = [(308, 0), (328, 0), (348, 0), (372, 1), (388, 0)] :=
  C73_preorder numFile numTree num_tree 0 100 (by decide)
example : ∃ l, numFile.forAllPost 100 232 0 = .ok l ∧ l.map (fun v => (v.item, v.deep)) = [(308, 0), (328, 0), (372, 1), (348, 0), (388, 0)] :=
  C73_postorder numFile numTree num_tree 0 100 (by decide)
example (A : List Int) (hA : A.length = 1024) : ∃ l B, numFile.forAllPostA 100 232 0 A = .ok (l, B) ∧ l.map (fun v => (v.item, v.above.take (v.deep + 1))) =
    [(308, [232]), (328, [232]), (372, [232, 348]), (348, [232]), (388, [232])] := by
  obtain ⟨l, B, h1, -, h3⟩ := C73_above numFile numTree num_tree A hA 100 (by decide)
  exact ⟨l, B, h1, h3⟩
end BX
