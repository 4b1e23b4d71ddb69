import Verif.Model.Utils
import Verif.Spec.Utils
import Verif.Lemmas.Text
/-
Properties C19-C21, C46, C49-C51: wildcard match, bounded scan, file names, directories, versions, bounded concatenation,
identifiers.
-/
namespace BX
open Spec

/-! ### C19 wildcard match -/

/-- the mask has no `?` directly after a `*` -/
def NoStarQ (mask : CStr) : Prop := ∀ a b, mask ≠ a ++ '*' :: '?' :: b

/-- a mask whose final `*` must stand for at least one character -/
def tight (mask : CStr) : CStr := if mask.getLast? = some '*' then mask ++ ['?'] else mask

theorem NoStarQ.tail {c : Char} {m : CStr} (h : NoStarQ (c :: m)) : NoStarQ m := by
  intro a b e; exact h (c :: a) b (by simp [e])

theorem match_star {m v : CStr} : Match ('*' :: m) v ↔ ∃ a b, v = a ++ b ∧ Match m b := by
  constructor
  · intro h
    generalize hm : ('*' :: m) = mm at h
    induction h with
    | done => cases hm
    | lit c h1 _ _ _ => cases hm; exact absurd rfl h1
    | one c _ _ => cases hm
    | skip h _ => cases hm; exact ⟨[], _, rfl, h⟩
    | more c h ih =>
      obtain ⟨a, b, rfl, hb⟩ := ih hm
      exact ⟨c :: a, b, rfl, hb⟩
  · rintro ⟨a, b, rfl, h⟩
    induction a with
    | nil => exact Match.skip h
    | cons c a ih => exact Match.more c ih

theorem match_nil {m v : CStr} (h : Match m v) : v = [] → ∀ c ∈ m, c = '*' := by
  induction h with
  | done => intro _ c hc; simp at hc
  | lit => intro h; cases h
  | one => intro h; cases h
  | skip h ih => intro hv c hc; rcases List.mem_cons.mp hc with rfl | hc; rfl; exact ih hv c hc
  | more => intro h; cases h

theorem match_lit {c d : Char} {m v : CStr} (h1 : c ≠ '*') (h2 : c ≠ '?') :
    Match (c :: m) (d :: v) ↔ c = d ∧ Match m v := by
  constructor
  · intro h
    cases h with
    | lit _ _ _ h => exact ⟨rfl, h⟩
    | one => exact absurd rfl h2
    | skip => exact absurd rfl h1
    | more => exact absurd rfl h1
  · rintro ⟨rfl, h⟩; exact Match.lit c h1 h2 h

theorem match_one {d : Char} {m v : CStr} : Match ('?' :: m) (d :: v) ↔ Match m v := by
  constructor
  · intro h
    cases h with
    | lit _ _ h2 _ => exact absurd rfl h2
    | one _ h => exact h
  · exact Match.one d

theorem match_stars (k : Nat) (m v : CStr) :
    Match ('*' :: (List.replicate k '*' ++ m)) v ↔ Match ('*' :: m) v := by
  induction k generalizing v with
  | zero => simp
  | succ k ih =>
    rw [List.replicate_succ, List.cons_append, match_star]
    constructor
    · rintro ⟨a, b, rfl, h⟩
      rw [ih, match_star] at h
      obtain ⟨a', b', rfl, h⟩ := h
      exact match_star.mpr ⟨a ++ a', b', by simp, h⟩
    · intro h
      exact ⟨[], v, rfl, (ih v).mpr h⟩

theorem skipWild_decomp (m : CStr) (h : NoStarQ ('*' :: m)) :
    ∃ k, m = List.replicate k '*' ++ skipWild m ∧ (∀ c cs, skipWild m = c :: cs → c ≠ '*' ∧ c ≠ '?') := by
  induction m with
  | nil => exact ⟨0, by simp [skipWild], by intro c cs h; simp [skipWild] at h⟩
  | cons x xs ih =>
    by_cases hx : x = '*'
    · subst hx
      obtain ⟨k, h1, h2⟩ := ih h.tail
      refine ⟨k + 1, ?_, ?_⟩
      · rw [skipWild, if_pos (Or.inl rfl), List.replicate_succ, List.cons_append, ← h1]
      · rw [skipWild, if_pos (Or.inl rfl)]; exact h2
    · have hq : x ≠ '?' := by rintro rfl; exact h [] xs rfl
      refine ⟨0, ?_, ?_⟩
      · rw [skipWild, if_neg (by simp [hx, hq])]; rfl
      · rw [skipWild, if_neg (by simp [hx, hq])]
        intro c cs e; cases e; exact ⟨hx, hq⟩

theorem tight_cons {c : Char} {m : CStr} (h : c ≠ '*' ∨ m ≠ []) : tight (c :: m) = c :: tight m := by
  cases m with
  | nil => simp at h; simp [tight, h]
  | cons d m =>
    simp only [tight, List.getLast?_cons_cons]
    split <;> rfl

theorem tight_replicate (k : Nat) (c : Char) (m : CStr) : tight (List.replicate k '*' ++ c :: m) = List.replicate k '*' ++ tight (c :: m) := by
  induction k with
  | zero => simp
  | succ k ih => rw [List.replicate_succ, List.cons_append, tight_cons (Or.inr (by simp)), ih]; rfl

theorem mem_suffixes {v : CStr} {c : Char} {w : CStr} : (c, w) ∈ suffixes v ↔ ∃ a, v = a ++ c :: w := by
  induction v with
  | nil => simp [suffixes]
  | cons x xs ih =>
    rw [suffixes, List.mem_cons, ih]
    constructor
    · rintro (h | ⟨a, rfl⟩)
      · cases h; exact ⟨[], rfl⟩
      · exact ⟨x :: a, rfl⟩
    · rintro ⟨a, h⟩
      cases a with
      | nil => simp at h; left; simp [h]
      | cons y a => simp at h; right; exact ⟨a, h.2⟩

theorem match_any_nonempty (k : Nat) (d : Char) (v : CStr) : Match ('*' :: (List.replicate k '*' ++ ['?'])) (d :: v) := by
  rw [match_stars, match_star]
  have : (d :: v) ≠ [] := by simp
  refine ⟨(d :: v).dropLast, [(d :: v).getLast this], (List.dropLast_concat_getLast this).symm, ?_⟩
  exact Match.one _ Match.done

theorem tight_ne_stars (m : CStr) (h : m ≠ []) : ∃ c ∈ tight m, c ≠ '*' := by
  unfold tight
  split
  · exact ⟨'?', by simp, by decide⟩
  · rename_i hl
    refine ⟨m.getLast h, List.getLast_mem h, ?_⟩
    intro e
    rw [List.getLast?_eq_some_getLast h, e] at hl
    exact hl rfl

theorem advEqual_tight (mask value : CStr) (hv : '*' ∉ value) (hm : NoStarQ mask) :
    advEqual mask value = true ↔ Match (tight mask) value := by
  fun_induction advEqual mask value with
  | case1 => simp [tight]; exact Match.done
  | case2 v vs =>
    simp [tight]
    intro h; cases h
  | case3 m ms =>
    simp
    intro h
    obtain ⟨c, h1, h2⟩ := tight_ne_stars (m :: ms) (by simp)
    exact h2 (match_nil h rfl c h1)
  | case4 m ms v vs h ih =>
    have hm' : m ≠ '*' := by
      rcases h with rfl | rfl
      · intro e; exact hv (by simp [e])
      · decide
    rw [ih (by intro e; exact hv (by simp [e])) hm.tail, tight_cons (Or.inl hm')]
    rcases h with rfl | rfl
    · by_cases hq : m = '?'
      · subst hq; rw [match_one]
      · rw [match_lit hm' hq]; simp
    · rw [match_one]
  | case5 m ms v vs h1 h2 =>
    obtain ⟨rfl, rfl⟩ := h2
    simp
    exact match_any_nonempty 0 v vs
  | case6 ms v vs h h1 h2 =>
    simp
    obtain ⟨k, e, _⟩ := skipWild_decomp ms hm
    rw [h] at e
    have hk : k ≠ 0 := by rintro rfl; simp at e; subst e; simp at h2
    have : tight ('*' :: ms) = '*' :: (List.replicate k '*' ++ ['?']) := by
      rw [e]
      unfold tight
      rw [if_pos]
      · simp
      · obtain ⟨k, rfl⟩ : ∃ j, k = j + 1 := ⟨k - 1, by omega⟩
        simp [List.replicate_succ', List.getLast?_cons]
    rw [this]
    exact match_any_nonempty k v vs
  | case7 ms v vs c cs h h1 h2 ih =>
    obtain ⟨k, e, hc⟩ := skipWild_decomp ms hm
    have hc := hc c cs h
    have hms : ms ≠ [] := by rintro rfl; simp at h2
    have ht : tight ('*' :: ms) = '*' :: (List.replicate k '*' ++ c :: tight cs) := by
      rw [tight_cons (Or.inr hms), e, h, tight_replicate, tight_cons (Or.inl hc.1)]
    have hcs : NoStarQ cs := by
      intro a b e'
      rw [h, e'] at e
      exact hm ('*' :: (List.replicate k '*' ++ c :: a)) b (by rw [e]; simp)
    rw [ht, match_stars, match_star, List.any_eq_true]
    constructor
    · rintro ⟨⟨d, w⟩, hmem, he⟩
      simp at he
      obtain ⟨rfl, he⟩ := he
      obtain ⟨a, ha⟩ := mem_suffixes.mp hmem
      refine ⟨a, c :: w, ha, (match_lit hc.1 hc.2).mpr ⟨rfl, ?_⟩⟩
      exact (ih (c, w) (by intro e; exact hv (by rw [ha]; simp [e])) hcs).mp he
    · rintro ⟨a, b, ha, hb⟩
      cases b with
      | nil => exact absurd (match_nil hb rfl c (by simp)) hc.1
      | cons d w =>
        obtain ⟨rfl, hb2⟩ := (match_lit hc.1 hc.2).mp hb
        refine ⟨(c, w), mem_suffixes.mpr ⟨a, ha⟩, ?_⟩
        simp
        exact (ih (c, w) (by intro e; exact hv (by rw [ha]; simp [e])) hcs).mpr hb2
  | case8 m ms v vs h1 h2 h3 =>
    simp
    have hq : m ≠ '?' := fun e => h1 (Or.inr e)
    rw [tight_cons (Or.inl h3), match_lit h3 hq]
    rintro ⟨rfl, _⟩
    exact h1 (Or.inl rfl)

/-- **C19** (partial). For masks without `*?` and values without a `*` character: the answer is exactly the match, except that a
`*` at the very end of the mask must stand for at least one character. (`*?` is treated as `*`, see below.) -/
theorem C19_match_partial (mask value : CStr) (hv : '*' ∉ value) (hm : NoStarQ mask) :
    (mask.getLast? ≠ some '*' → (advEqual mask value = true ↔ Match mask value)) ∧
    (mask.getLast? = some '*' → (advEqual mask value = true ↔ Match (mask ++ ['?']) value)) := by
  refine ⟨fun h => ?_, fun h => ?_⟩
  · rw [advEqual_tight mask value hv hm, tight, if_neg h]
  · rw [advEqual_tight mask value hv hm, tight, if_pos h]

/-- **C19**: no false alarm: for every mask without `*?` and every value whatsoever, a positive answer means a real match. -/
theorem C19_sound_partial (mask value : CStr) (hm : NoStarQ mask) : advEqual mask value = true → Match mask value := by
  fun_induction advEqual mask value with
  | case1 => intro _; exact Match.done
  | case2 => intro h; cases h
  | case3 => intro h; cases h
  | case4 m ms v vs h ih =>
    intro ha
    have := ih hm.tail ha
    by_cases hq : m = '?'
    · subst hq; exact Match.one v this
    · have hmv : m = v := by rcases h with h | h; exact h; exact absurd h hq
      subst hmv
      by_cases hs : m = '*'
      · subst hs; exact Match.more _ (Match.skip this)
      · exact Match.lit m hs hq this
  | case5 m ms v vs h1 h2 =>
    obtain ⟨rfl, rfl⟩ := h2
    intro _
    exact match_star.mpr ⟨v :: vs, [], by simp, Match.done⟩
  | case6 ms v vs h h1 h2 =>
    intro _
    obtain ⟨k, e, _⟩ := skipWild_decomp ms hm
    rw [h] at e
    rw [e, match_stars]
    exact match_star.mpr ⟨v :: vs, [], by simp, Match.done⟩
  | case7 ms v vs c cs h h1 h2 ih =>
    intro ha
    obtain ⟨k, e, hc⟩ := skipWild_decomp ms hm
    have hc := hc c cs h
    have hcs : NoStarQ cs := by
      intro a b e'
      rw [h, e'] at e
      exact hm ('*' :: (List.replicate k '*' ++ c :: a)) b (by rw [e]; simp)
    rw [List.any_eq_true] at ha
    obtain ⟨⟨d, w⟩, hmem, he⟩ := ha
    simp at he
    obtain ⟨rfl, he⟩ := he
    obtain ⟨a, ha⟩ := mem_suffixes.mp hmem
    rw [e, h, match_stars]
    exact match_star.mpr ⟨a, c :: w, ha, Match.lit c hc.1 hc.2 (ih (c, w) hcs he)⟩
  | case8 => intro h; cases h

/-- non-vacuity: the mask `a*b?d` meets the hypotheses and is matched by `axbbcd` through backtracking -/
example : advEqual "a*b?d".toList "axbbcd".toList = true ∧ '*' ∉ "axbbcd".toList ∧ NoStarQ "a*b?d".toList ∧
    Match "a*b?d".toList "axbbcd".toList ∧ advEqual "a*b?d".toList "axbbcde".toList = false := by
  have hq : NoStarQ "a*b?d".toList := by
    intro a b h
    rcases a with _ | ⟨x, _ | ⟨y, _ | ⟨z, _ | ⟨u, _ | ⟨w, a⟩⟩⟩⟩⟩ <;> simp at h
  have h1 : advEqual "a*b?d".toList "axbbcd".toList = true := by simp [advEqual, skipWild, suffixes]
  refine ⟨h1, by decide, hq, C19_sound_partial _ _ hq h1, by simp [advEqual, skipWild, suffixes]⟩

/-- the full property is false: `a*` does not match `a` … -/
theorem C19_false_trailing_star : advEqual "a*".toList "a".toList = false ∧ Match "a*".toList "a".toList :=
  ⟨by simp [advEqual], Match.lit 'a' (by decide) (by decide) (Match.skip Match.done)⟩

/-- … `*?b` matches `b` although one character is demanded before it … -/
theorem C19_false_star_question : advEqual "*?b".toList "b".toList = true ∧ ¬ Match "*?b".toList "b".toList := by
  refine ⟨by simp [advEqual, skipWild, suffixes], ?_⟩
  intro h
  have h : Match ['*', '?', 'b'] ['b'] := h
  obtain ⟨a, b, e, h⟩ := match_star.mp h
  rcases a with _ | ⟨x, a⟩
  · simp at e; subst e
    rw [match_one] at h
    exact absurd (match_nil h rfl 'b' (by simp)) (by decide)
  · simp at e
    obtain ⟨rfl, rfl, rfl⟩ := e
    cases h

/-- … and a star in the value hides matches: `*b` does not match `*ab`. -/
theorem C19_false_star_in_value : advEqual "*b".toList "*ab".toList = false ∧ Match "*b".toList "*ab".toList :=
  ⟨by simp [advEqual], Match.more _ (Match.more _ (Match.skip (Match.lit 'b' (by decide) (by decide) Match.done)))⟩

/-- **C19**: a null mask matches everything -/
theorem C19_null_mask (value : CStr) : advEqualP none value = true := rfl

/-! ### C20 bounded scan -/

theorem scanStrLoop_spec (stop : Char → Bool) (size : Nat) (p : CStr) :
    scanStrLoop stop size p = ((p.takeWhile fun c => !stop c).take (size - 1), p.dropWhile fun c => !stop c) := by
  induction p generalizing size with
  | nil => simp [scanStrLoop]
  | cons c cs ih =>
    rw [scanStrLoop]
    by_cases hs : stop c = true
    · simp [hs]
    · simp only [hs]
      by_cases hr : 1 < size
      · simp only [hr, if_true, ih]
        obtain ⟨k, rfl⟩ : ∃ k, size = k + 2 := ⟨size - 2, by omega⟩
        simp [hs]
      · have h0 : size - 1 = 0 := by omega
        simp [hr, ih, hs, h0]

/-- the characters that end a field: the separator, or any white space if the separator is a space -/
def stopAt (separator : Char) (c : Char) : Bool := if separator = ' ' then isSpace c else c == separator

theorem dropWhile_shape (stop : Char → Bool) (p : CStr) :
    p.dropWhile (fun c => !stop c) = [] ∨ ∃ c r, p.dropWhile (fun c => !stop c) = c :: r ∧ stop c = true := by
  induction p with
  | nil => simp
  | cons x xs ih =>
    by_cases h : stop x = true
    · right; exact ⟨x, xs, by simp [h], h⟩
    · simp only [List.dropWhile_cons, h]; simpa using ih

/-- **C20** (partial). For a buffer of at least one byte and a separator other than NUL: leading white space `sp` is skipped, the
field is the text up to the separator or the end, the bytes stored are the field, cut to the buffer, and a terminator, never more
than the buffer holds; the cursor stands behind the separator (or at the end); the answer is whether the copy is not empty. -/
theorem C20_scan_partial (p : CStr) (separator : Char) (size : Nat) (hp : '\x00' ∉ p) (hs : separator ≠ '\x00') (hz : 1 ≤ size) :
    ∃ sp field rest, p = sp ++ field ++ rest ∧ (∀ c ∈ sp, isSpace c = true) ∧ (∀ c, (field ++ rest).head? = some c → isSpace c = false) ∧
      (∀ c ∈ field, stopAt separator c = false) ∧ (rest = [] ∨ ∃ c r, rest = c :: r ∧ stopAt separator c = true) ∧
      (scanStr p separator size).written = field.take (size - 1) ++ ['\x00'] ∧
      (scanStr p separator size).written.length ≤ size ∧
      (scanStr p separator size).rest = some rest.tail ∧
      ((scanStr p separator size).ret = true ↔ field.take (size - 1) ≠ []) := by
  obtain ⟨sp, h1, h2, h3⟩ := skipSpaces_decomp p
  have hfun : (fun c => !stopAt separator c) = if separator = ' ' then (fun c => !isSpace c) else (fun c => !(c == separator)) := by
    funext c; unfold stopAt; split <;> rfl
  refine ⟨sp, (skipSpaces p).takeWhile fun c => !stopAt separator c, (skipSpaces p).dropWhile fun c => !stopAt separator c,
    ?_, h1, ?_, ?_, dropWhile_shape (stopAt separator) _, ?_⟩
  · rw [List.append_assoc, List.takeWhile_append_dropWhile]; exact h2
  · rw [List.takeWhile_append_dropWhile]
    intro c hc
    cases hk : skipSpaces p with
    | nil => rw [hk] at hc; simp at hc
    | cons x xs =>
      rw [hk] at hc h3
      simp at hc; subst hc
      simpa [peek] using h3
  · intro c hc
    have := List.all_takeWhile (p := fun c => !stopAt separator c) (l := skipSpaces p)
    rw [List.all_eq_true] at this
    simpa using this c hc
  · have hnul : ∀ w : CStr, (∀ c ∈ w, c ∈ p) → ((peek w != '\x00') = true ↔ w ≠ []) := by
      intro w hw
      cases w with
      | nil => simp [peek]
      | cons x xs =>
        have : x ≠ '\x00' := by rintro rfl; exact hp (hw _ (by simp))
        simp [peek, this]
    have hlen : ∀ f : CStr, (f.take (size - 1) ++ ['\x00']).length ≤ size := by
      intro f; simp; omega
    have hsub : ∀ q : Char → Bool, ∀ c ∈ ((skipSpaces p).takeWhile q).take (size - 1), c ∈ p := by
      intro q c hc
      rw [h2]
      exact List.mem_append_right _ (List.takeWhile_subset _ (List.mem_of_mem_take hc))
    unfold scanStr
    simp only [scanStrLoop_spec]
    by_cases hsep : separator = ' '
    · rw [hfun]
      simp only [hsep, if_true]
      exact ⟨trivial, hlen _, trivial, hnul _ (hsub _)⟩
    · rw [hfun]
      simp only [hsep, if_false]
      refine ⟨trivial, hlen _, ?_, hnul _ (hsub _)⟩
      rcases dropWhile_shape (fun c => c == separator) (skipSpaces p) with h | ⟨c, r, h, hc⟩
      · rw [h]
        have : peek [] ≠ separator := by simp [peek]; exact fun e => hs e.symm
        rw [if_neg this]; rfl
      · rw [h]
        have : c = separator := by simpa using hc
        simp [peek, this]

/-- non-vacuity, and a field that is cut although the answer is `true` -/
example : scanStr "  abc,def".toList ',' 8 = { ret := true, rest := some "def".toList, written := "abc\x00".toList } ∧
    scanStr "  abc,def".toList ',' 3 = { ret := true, rest := some "def".toList, written := "ab\x00".toList } := by decide +kernel

/-- The guard on the size is needed: with `value_size` 0 one byte is stored all the same. -/
theorem C20_false_size_zero : ¬ ((scanStr "abc".toList ',' 0).written.length ≤ 0) := by decide +kernel

/-- The guard on the separator is needed: with separator NUL the cursor leaves the input. -/
theorem C20_false_separator_nul : (scanStr "abc".toList '\x00' 8).rest = none := by decide +kernel

/-- The answer does not tell whether the field fitted: a cut field is reported as `true`. -/
theorem C20_false_truncation_unreported :
    (scanStr "abcdef,".toList ',' 3).ret = true ∧ (scanStr "abcdef,".toList ',' 3).written = "ab\x00".toList := by decide +kernel

/-! ### C21 file names -/

theorem beforeLastDot_append (a e : CStr) (h : '.' ∉ e) : beforeLastDot (a ++ '.' :: e) = a := by
  unfold beforeLastDot
  rw [if_pos (by simp)]
  have : (a ++ '.' :: e).reverse = e.reverse ++ '.' :: a.reverse := by simp
  rw [this]
  have h2 : ∀ c ∈ e.reverse, (c != '.') = true := by
    intro c hc
    simp at hc ⊢
    rintro rfl; exact h hc
  rw [List.dropWhile_append_of_pos h2]
  simp

theorem beforeLastDot_path (path dir base stem : CStr) (hsp : SplitPath path dir base) (hst : StemOf base stem)
    (hg : '.' ∈ base ∨ '.' ∉ dir) : beforeLastDot path = dir ++ stem := by
  obtain ⟨rfl, _, _⟩ := hsp
  rcases hst with ⟨e, rfl, he⟩ | ⟨hb, rfl⟩
  · rw [← List.append_assoc, beforeLastDot_append _ _ he]
  · have : '.' ∉ dir ++ stem := by simp [hb]; simpa [hb] using hg
    rw [beforeLastDot, if_neg this]

/-- **C21** (partial). The whole name (target directory, slash, file name without a leading slash) has a last component `base`; if
that component has a dot, or no directory in the name has one, exactly its extension is replaced (or one is added).
The name must be shorter than `PATH_MAX` and not start with `./`. -/
theorem C21_change_partial (filename ext : CStr) (target : Option CStr) (path dir base stem : CStr)
    (hpath : path = match target with
      | none => filename
      | some d => d ++ '/' :: (if filename.head? = some '/' then filename.tail else filename))
    (hlen : path.length < PATH_MAX) (hdot : ∀ r, filename ≠ '.' :: '/' :: r)
    (hsp : SplitPath path dir base) (hst : StemOf base stem) (hg : '.' ∈ base ∨ '.' ∉ dir) :
    changeExt filename (some ext) target = .ok (dir ++ stem ++ ext) ∧
    changeExt filename none target = .ok path := by
  have h1 : stripDotSlash filename = filename := by
    unfold stripDotSlash
    split
    · exact absurd rfl (hdot _)
    · rfl
  have h2 : joinTarget filename target = .ok path := by
    unfold joinTarget
    cases target with
    | none =>
      simp at hpath; subst hpath
      exact congrArg Out.ok (List.take_of_length_le (by simp [PATH_MAX] at hlen ⊢; omega))
    | some d =>
      have hp : (peek filename = '/') ↔ filename.head? = some '/' := by
        cases filename <;> simp [peek]
      simp only [hp]
      simp only at hpath
      generalize (if filename.head? = some '/' then filename.tail else filename) = f at hpath ⊢
      subst hpath
      simp [PATH_MAX] at hlen ⊢
      have e1 : List.take 4095 d = d := List.take_of_length_le (by omega)
      have e2 : List.take (4095 - min 4095 d.length - 1) f = f := List.take_of_length_le (by omega)
      rw [e1, if_neg (by omega), e2]
  constructor
  · simp only [changeExt, h1, h2, Out.bind_ok]
    rw [beforeLastDot_path path dir base stem hsp hst hg]
  · simp only [changeExt, h1, h2, Out.bind_ok]

/-- **C21**: leading `./` are dropped -/
theorem C21_dot_slash (filename : CStr) (ext target : Option CStr) :
    changeExt ('.' :: '/' :: filename) ext target = changeExt filename ext target := by
  unfold changeExt; rw [stripDotSlash]

/-- non-vacuity: the example of the source comment -/
example : changeExt "src/common/test.xml".toList (some ".xb".toList) (some "build/temp".toList) =
      .ok "build/temp/src/common/test.xb".toList ∧
    SplitPath "build/temp/src/common/test.xml".toList "build/temp/src/common/".toList "test.xml".toList ∧
    StemOf "test.xml".toList "test".toList := by
  refine ⟨?_, ⟨by decide, by decide, Or.inr (by decide)⟩, Or.inl ⟨"xml".toList, by decide, by decide⟩⟩
  exact (C21_change_partial _ _ _ _ "build/temp/src/common/".toList "test.xml".toList "test".toList rfl (by decide) (by simp)
    ⟨by decide, by decide, Or.inr (by decide)⟩ (Or.inl ⟨"xml".toList, by decide, by decide⟩) (Or.inl (by decide))).1

/-- The full property is false: without an extension in the last component a dot in a directory is taken for one. -/
theorem C21_false_dot_in_directory :
    changeExt "my.dir/file".toList (some ".xb".toList) none = .ok "my.xb".toList ∧
    changeExt "../Makefile".toList (some ".o".toList) none = .ok "..o".toList := by decide +kernel

/-! ### C46 parent directories -/

theorem forceLoop_spec (mkdir : List CStr → CStr → MkRes) (calls : List CStr) (done todo : CStr) :
    ∃ ps qs, ps ++ qs = (((List.range todo.length).filter fun i => 0 < done.length + i && todo[i]? == some '/').map
        fun i => done.reverse ++ todo.take i) ∧
      (forceLoop mkdir calls done todo).2 = calls.reverse ++ ps ∧
      ((forceLoop mkdir calls done todo).1 = true → qs = [] ∧
        ∀ i (h : i < ps.length), mkdir ((ps.take i).reverse ++ calls) ps[i] ≠ .error) ∧
      ((forceLoop mkdir calls done todo).1 = false → ∃ h : 0 < ps.length,
        mkdir ((ps.take (ps.length - 1)).reverse ++ calls) (ps[ps.length - 1]) = .error ∧
        ∀ i (h : i < ps.length - 1), mkdir ((ps.take i).reverse ++ calls) ps[i] ≠ .error) := by
  induction todo generalizing calls done with
  | nil => exact ⟨[], [], by simp, by simp [forceLoop], by simp, by simp [forceLoop]⟩
  | cons c cs ih =>
    have hshift : ((List.range (c :: cs).length).filter fun i => 0 < done.length + i && (c :: cs)[i]? == some '/').map
        (fun i => done.reverse ++ (c :: cs).take i) =
        (if c = '/' ∧ done ≠ [] then [done.reverse] else []) ++
        ((List.range cs.length).filter fun i => 0 < (c :: done).length + i && cs[i]? == some '/').map
          (fun i => (c :: done).reverse ++ cs.take i) := by
      rw [List.length_cons, List.range_succ_eq_map, List.filter_cons]
      have e1 : (decide (0 < done.length + 0) && (c :: cs)[0]? == some '/') = decide (c = '/' ∧ done ≠ []) := by
        have : (0 < done.length) ↔ done ≠ [] := List.length_pos_iff
        simp [this, and_comm, Bool.decide_and]
        by_cases hc : c = '/' <;> simp [hc]
      rw [e1, List.filter_map]
      have e2 : ((fun i => decide (0 < done.length + i) && (c :: cs)[i]? == some '/') ∘ Nat.succ) =
          (fun i => decide (0 < (c :: done).length + i) && cs[i]? == some '/') := by
        funext i
        have : (0 < done.length + (i + 1)) = (0 < done.length + 1 + i) := propext ⟨fun _ => by omega, fun _ => by omega⟩
        simp
        simp only [this]
      rw [e2]
      by_cases hc : c = '/' ∧ done ≠ []
      · simp [hc, Function.comp_def]
      · simp [hc, Function.comp_def]
    rw [hshift, forceLoop]
    by_cases hc : c = '/' ∧ done ≠ []
    · rw [if_pos hc, if_pos hc]
      cases hmk : mkdir calls done.reverse with
      | error =>
        refine ⟨[done.reverse], _, rfl, by simp, by simp, fun _ => ⟨by simp, ?_, ?_⟩⟩
        · simpa using hmk
        · intro i h; simp at h
      | created | exists_ =>
        all_goals
          obtain ⟨ps, qs, h1, h2, h3, h4⟩ := ih (done.reverse :: calls) (c :: done)
          refine ⟨done.reverse :: ps, qs, ?_, ?_, ?_, ?_⟩
          · rw [List.cons_append, h1]; rfl
          · simp only [h2]; simp
          · intro h
            obtain ⟨h5, h6⟩ := h3 h
            refine ⟨h5, fun i hi => ?_⟩
            cases i with
            | zero => simp [hmk]
            | succ i =>
              have := h6 i (by simpa using hi)
              simpa using this
          · intro h
            obtain ⟨h5, h6, h7⟩ := h4 h
            obtain ⟨k, hk⟩ : ∃ k, ps.length = k + 1 := ⟨ps.length - 1, by omega⟩
            refine ⟨by simp, ?_, fun i hi => ?_⟩
            · simp only [hk, List.length_cons, Nat.add_sub_cancel] at h6 ⊢
              simpa using h6
            · cases i with
              | zero => simp [hmk]
              | succ i =>
                have := h7 i (by simp at hi; omega)
                simpa using this
    · rw [if_neg hc, if_neg hc]
      obtain ⟨ps, qs, h1, h2, h3, h4⟩ := ih calls (c :: done)
      exact ⟨ps, qs, by rw [h1]; rfl, h2, h3, h4⟩

/-- **C46**. Whatever `mkdir` does (its result may depend on all earlier calls): the calls made are the proper parents in order
from the outermost, up to the first that fails for a reason other than "exists"; success is reported exactly if none failed. -/
theorem C46_force_directory (mkdir : List CStr → CStr → MkRes) (path : CStr) :
    let r := forceDirectory mkdir path
    let history := fun i => ((parents path).take i).reverse
    (r.1 = true ↔ ∀ i (h : i < (parents path).length), mkdir (history i) (parents path)[i] ≠ .error) ∧
    (r.1 = true → r.2 = parents path) ∧
    (r.1 = false → ∃ k, ∃ h : k < (parents path).length, r.2 = (parents path).take (k + 1) ∧
      mkdir (history k) (parents path)[k] = .error ∧
      ∀ i (h : i < k), mkdir (history i) (parents path)[i] ≠ .error) := by
  obtain ⟨ps, qs, h1, h2, h3, h4⟩ := forceLoop_spec mkdir [] [] path
  have hp : parents path = ps ++ qs := by
    rw [h1]; simp [parents]
  have h2 : (forceDirectory mkdir path).2 = ps := by rw [forceDirectory, h2]; simp
  change ((forceDirectory mkdir path).1 = true → _) at h3
  change ((forceDirectory mkdir path).1 = false → _) at h4
  simp only [List.append_nil] at h3 h4
  simp only [hp, h2]
  have hfalse : (forceDirectory mkdir path).1 = false → ∃ k, ∃ h : k < (ps ++ qs).length, ps = (ps ++ qs).take (k + 1) ∧
      mkdir ((ps ++ qs).take k).reverse (ps ++ qs)[k] = .error ∧
      ∀ i (h : i < k), mkdir ((ps ++ qs).take i).reverse ((ps ++ qs)[i]'(by omega)) ≠ .error := by
    intro h
    obtain ⟨h5, h6, h7⟩ := h4 h
    refine ⟨ps.length - 1, by simp; omega, ?_, ?_, ?_⟩
    · rw [show ps.length - 1 + 1 = ps.length by omega]; simp
    · rw [List.take_append_of_le_length (by omega), List.getElem_append_left (by omega)]; exact h6
    · intro i hi
      rw [List.take_append_of_le_length (by omega), List.getElem_append_left (by omega)]; exact h7 i hi
  refine ⟨⟨fun h => ?_, fun h => ?_⟩, ?_, hfalse⟩
  · obtain ⟨rfl, h6⟩ := h3 h
    simpa using h6
  · cases hb : (forceDirectory mkdir path).1 with
    | true => rfl
    | false =>
      obtain ⟨k, hk, _, h5, _⟩ := hfalse hb
      exact absurd h5 (h k hk)
  · intro h
    obtain ⟨rfl, _⟩ := h3 h
    simp

/-- non-vacuity: the parents of an absolute path, and a failing second call -/
example : parents "/a/bc/d".toList = ["/a".toList, "/a/bc".toList] ∧
    forceDirectory (fun _ d => if d.length = 5 then .error else .created) "/a/bc/d/e".toList = (false, ["/a".toList, "/a/bc".toList]) ∧
    forceDirectory (fun _ _ => .exists_) "/a/bc/d/e".toList = (true, ["/a".toList, "/a/bc".toList, "/a/bc/d".toList]) := by
  decide +kernel

/-! ### C49 versions -/

/-- the usual text of a version -/
def verText : List Nat → CStr
  | [] => []
  | [a] => dec a
  | a :: b :: r => dec a ++ '.' :: verText (b :: r)

/-- the number of a version with at most `n` components -/
def verNum : Nat → List Nat → Nat
  | _, [] => 0
  | 0, _ => 0
  | n + 1, a :: r => a * 256 ^ n + verNum n r

theorem verNum_lt (n : Nat) (vs : List Nat) (h : ∀ a ∈ vs, a ≤ 255) : verNum n vs < 256 ^ n := by
  induction n generalizing vs with
  | zero => cases vs <;> simp [verNum]
  | succ n ih =>
    cases vs with
    | nil => exact Nat.pow_pos (by decide)
    | cons a r =>
      rw [verNum]
      have h1 := ih r (fun b hb => h b (by simp [hb]))
      have h2 := Nat.mul_le_mul_right (256 ^ n) (h a (by simp))
      rw [Nat.pow_succ]
      omega

theorem scanInt_dec (a : Nat) (rest : CStr) (ha : a ≤ 255) (hr : NoDigit rest) : scanInt (dec a ++ rest) = .ok ((a : Int), rest) := by
  have := scanSigned_run 2147483647 [] (dec a) rest false (by intro c hc; simp at hc) (dec_Digits a) hr
  rw [dec_value, if_pos (show a ≤ 2147483647 by omega)] at this
  exact this

theorem or_shift (n v a : Nat) (ha : a ≤ 255) (hv : v % 256 ^ (n + 1) = 0) : v ||| (a <<< (n * 8)) = v + a * 256 ^ n := by
  have h256 : (256 : Nat) ^ n = 2 ^ (n * 8) := by rw [Nat.mul_comm, Nat.pow_mul]
  have h256' : (256 : Nat) ^ (n + 1) = 2 ^ ((n + 1) * 8) := by rw [Nat.mul_comm, Nat.pow_mul]
  obtain ⟨q, rfl⟩ := Nat.dvd_of_mod_eq_zero hv
  have hlt : a <<< (n * 8) < 2 ^ ((n + 1) * 8) := by
    rw [Nat.shiftLeft_eq, ← h256, ← h256', Nat.pow_succ]
    have := Nat.mul_le_mul_right (256 ^ n) ha
    have := Nat.pow_pos (n := n) (show 0 < 256 by decide)
    omega
  have := Nat.shiftLeft_add_eq_or_of_lt hlt q
  rw [Nat.shiftLeft_eq q, ← h256', Nat.mul_comm q] at this
  rw [← this, Nat.shiftLeft_eq, h256]

theorem getVersionLoop_spec (n : Nat) (vs : List Nat) (v : Nat) (hl : vs.length ≤ n) (hb : ∀ a ∈ vs, a ≤ 255)
    (hv : v % 256 ^ n = 0) : getVersionLoop n (verText vs) v = .ok (v + verNum n vs) := by
  induction n generalizing vs v with
  | zero =>
    have : vs = [] := List.length_eq_zero_iff.mp (by omega)
    subst this; simp [getVersionLoop, verNum]
  | succ n ih =>
    cases vs with
    | nil => simp [getVersionLoop, verText, verNum]
    | cons a r =>
      have ha := hb a (by simp)
      have hlim : (limite (a : Int) 0 255).toNat = a := by
        have h1 : ¬ ((a : Int) < 0) := by omega
        have h2 : ¬ ((a : Int) > 255) := by omega
        simp [limite, h1, h2]
      have hadd : (v + a * 256 ^ n) % 256 ^ n = 0 := by
        rw [Nat.add_mul_mod_self_right]
        exact Nat.mod_eq_zero_of_dvd (Nat.dvd_trans ⟨256, by rw [Nat.pow_succ]⟩ (Nat.dvd_of_mod_eq_zero hv))
      have hne : ∀ t : CStr, dec a ++ t ≠ [] := by intro t h; simp at h; exact dec_ne_nil a h.1
      cases r with
      | nil =>
        have h1 := scanInt_dec a [] ha (by simp [NoDigit, peek]; decide)
        have h2 := hne []
        rw [List.append_nil] at h1 h2
        rw [verText, getVersionLoop, if_neg h2, h1]
        simp only [hlim, or_shift n v a ha hv, verNum]
        simp [peek]
      | cons b r =>
        have h1 := scanInt_dec a ('.' :: verText (b :: r)) ha (by simp [NoDigit, peek]; decide)
        rw [verText, getVersionLoop, if_neg (hne _), h1]
        simp only [hlim, or_shift n v a ha hv]
        rw [if_pos (by rfl), List.tail_cons, ih (b :: r) _ (by simpa using hl) (fun x hx => hb x (by simp [hx])) hadd]
        simp only [verNum]
        congr 1
        omega

theorem verNum_order (n : Nat) (as bs : List Nat) (ha : as.length ≤ n) (hb : bs.length ≤ n) (h1 : ∀ a ∈ as, a ≤ 255)
    (h2 : ∀ b ∈ bs, b ≤ 255) : (verNum n as < verNum n bs ↔ verLt as bs) ∧ (verNum n as = verNum n bs ↔ verEq as bs) := by
  induction n generalizing as bs with
  | zero =>
    have e1 : as = [] := List.length_eq_zero_iff.mp (by omega)
    have e2 : bs = [] := List.length_eq_zero_iff.mp (by omega)
    subst e1 e2; simp [verNum, verLt, verEq]
  | succ n ih =>
    have hpos : 0 < 256 ^ n := Nat.pow_pos (by decide)
    cases as with
    | nil =>
      cases bs with
      | nil => simp [verNum, verLt, verEq]
      | cons b bs =>
        have := ih [] bs (by simp) (by simpa using hb) (by simp) (fun x hx => h2 x (by simp [hx]))
        simp only [verNum, verLt, verEq] at this ⊢
        rw [← this.1, ← this.2]
        rcases Nat.eq_zero_or_pos b with rfl | hbp
        · simp
        · have := Nat.mul_le_mul_right (256 ^ n) hbp
          constructor <;> constructor <;> intro h <;> omega
    | cons a as =>
      have e0 : ∀ n, verNum n [] = 0 := by intro n; cases n <;> rfl
      cases bs with
      | nil =>
        have := ih as [] (by simpa using ha) (by simp) (fun x hx => h1 x (by simp [hx])) (by simp)
        rw [e0] at this
        simp only [verNum, verLt, verEq]
        rw [← this.2]
        rcases Nat.eq_zero_or_pos a with rfl | hbp
        · simp
        · have := Nat.mul_le_mul_right (256 ^ n) hbp
          constructor <;> constructor <;> intro h <;> first | exact h.elim | omega
      | cons b bs =>
        have := ih as bs (by simpa using ha) (by simpa using hb) (fun x hx => h1 x (by simp [hx])) (fun x hx => h2 x (by simp [hx]))
        have l1 := verNum_lt n as (fun x hx => h1 x (by simp [hx]))
        have l2 := verNum_lt n bs (fun x hx => h2 x (by simp [hx]))
        simp only [verNum, verLt, verEq]
        rw [← this.1, ← this.2]
        rcases Nat.lt_trichotomy a b with hlt | rfl | hgt
        · have := Nat.mul_le_mul_right (256 ^ n) (show a + 1 ≤ b from hlt)
          rw [Nat.add_mul] at this
          constructor <;> constructor <;> intro h <;> omega
        · constructor <;> constructor <;> intro h <;> omega
        · have := Nat.mul_le_mul_right (256 ^ n) (show b + 1 ≤ a from hgt)
          rw [Nat.add_mul] at this
          constructor <;> constructor <;> intro h <;> omega

/-- **C49**. For all versions of up to four components of at most 255: both texts are converted, and the numbers compare exactly
as the versions do. -/
theorem C49_version_order (as bs : List Nat) (ha : as.length ≤ 4) (hb : bs.length ≤ 4) (h1 : ∀ a ∈ as, a ≤ 255)
    (h2 : ∀ b ∈ bs, b ≤ 255) : ∃ x y, getVersion (verText as) = .ok x ∧ getVersion (verText bs) = .ok y ∧
      x < 2 ^ 32 ∧ y < 2 ^ 32 ∧ (x < y ↔ verLt as bs) ∧ (x = y ↔ verEq as bs) := by
  refine ⟨verNum 4 as, verNum 4 bs, ?_, ?_, verNum_lt 4 as h1, verNum_lt 4 bs h2, verNum_order 4 as bs ha hb h1 h2⟩
  · rw [getVersion, getVersionLoop_spec 4 as 0 ha h1 (by simp)]; simp
  · rw [getVersion, getVersionLoop_spec 4 bs 0 hb h2 (by simp)]; simp

/-- non-vacuity -/
example : verText [1, 2, 255] = "1.2.255".toList ∧ getVersion "1.2.255".toList = .ok 0x0102ff00 ∧ verLt [1, 2, 255] [1, 3] := by
  refine ⟨?_, by decide +kernel, by simp [verLt]⟩
  simp [verText, dec]; decide

/-- Components above 255 are cut: the bound is needed. -/
theorem C49_bound_needed : getVersion "1.300".toList = getVersion "1.255".toList := by decide +kernel

/-! ### C50 bounded concatenation -/

/-- the number of characters the caller asks to copy -/
def srcSize (src : List Char) (limit : Option Nat) : Nat :=
  match limit with
  | some n => n
  | none => (src.takeWhile (· != '\x00')).length

theorem strWrite_eq (room : Nat) (src : List Char) (limit : Option Nat) : strWrite room src limit =
    if srcSize src limit > room then { ret := false, written := [], advance := 0, src := some 0 }
    else { ret := true, written := strncpyBytes src (srcSize src limit), advance := srcSize src limit, src := limit } := by
  cases limit <;> rfl

/-- **C50** (partial): everything but the terminator. Either the whole source fits, then exactly its characters are stored and the
destination moves behind them, never past the limit; or nothing is stored and nothing moves. The answer says which. -/
theorem C50_copy_partial (room : Nat) (src : List Char) (limit : Option Nat) (hsrc : srcSize src limit ≤ src.length)
    (hn : '\x00' ∉ src.take (srcSize src limit)) :
    let r := strWrite room src limit
    (r.ret = true ↔ srcSize src limit ≤ room) ∧
    (r.ret = true → r.written = src.take (srcSize src limit) ∧ r.advance = srcSize src limit) ∧
    (r.ret = false → r.written = [] ∧ r.advance = 0 ∧ r.src = some 0) ∧
    r.written.length ≤ room ∧ r.advance ≤ room := by
  simp only [strWrite_eq]
  by_cases h : srcSize src limit > room
  · simp [h]
  · have hw : strncpyBytes src (srcSize src limit) = src.take (srcSize src limit) := by
      have : (src.take (srcSize src limit)).takeWhile (· != '\x00') = src.take (srcSize src limit) := by
        have h2 : ∀ c ∈ src.take (srcSize src limit), (c != '\x00') = true := by
          intro c hc; simp; rintro rfl; exact hn hc
        have := List.takeWhile_append_of_pos (l₂ := []) h2
        simpa using this
      simp only [strncpyBytes, this]
      have : (src.take (srcSize src limit)).length = srcSize src limit := by simp; omega
      rw [this]; simp
    rw [if_neg h]
    refine ⟨by simp; omega, fun _ => ⟨hw, rfl⟩, by simp, ?_, by show srcSize src limit ≤ room; omega⟩
    show (strncpyBytes src (srcSize src limit)).length ≤ room
    rw [hw]; simp; omega

/-- **C50**: whatever the source holds (also terminators before its limit), no more bytes are stored than there is room. -/
theorem C50_within_room (room : Nat) (src : List Char) (limit : Option Nat) : (strWrite room src limit).written.length ≤ room := by
  simp only [strWrite_eq]
  by_cases h : srcSize src limit > room
  · simp [h]
  · rw [if_neg h]
    simp only [strncpyBytes, List.length_append, List.length_replicate]
    have h1 : ((src.take (srcSize src limit)).takeWhile (· != '\x00')).length ≤ (src.take (srcSize src limit)).length :=
      (List.takeWhile_sublist _).length_le
    simp at h1
    omega

/-- non-vacuity -/
example : strWrite 5 "abc\x00".toList (some 3) = { ret := true, written := "abc".toList, advance := 3, src := some 3 } ∧
    strWrite 2 "abc\x00".toList (some 3) = { ret := false, written := [], advance := 0, src := some 0 } := by decide +kernel

/-- The full property is false: no terminator is stored, even with room left. -/
theorem C50_false_not_terminated : (strWrite 10 "abc\x00".toList none).ret = true ∧ '\x00' ∉ (strWrite 10 "abc\x00".toList none).written := by
  decide +kernel

/-- Without a source limit the caller's source pointer becomes null after a successful copy. -/
theorem C50_false_source_null : (strWrite 10 "abc\x00".toList none).src = none := by decide +kernel

/-! ### C51 identifiers -/

theorem isLower_iff (c : Char) : isLower c = true ↔ 'a' ≤ c ∧ c ≤ 'z' := by
  simp only [isLower, Bool.and_eq_true, decide_eq_true_eq]; exact Iff.rfl
theorem isUpper_iff (c : Char) : isUpper c = true ↔ 'A' ≤ c ∧ c ≤ 'Z' := by
  simp only [isUpper, Bool.and_eq_true, decide_eq_true_eq]; exact Iff.rfl
theorem isDig_iff (c : Char) : isDig c = true ↔ '0' ≤ c ∧ c ≤ '9' := by
  simp only [isDig, Bool.and_eq_true, decide_eq_true_eq]; exact Iff.rfl

theorem toUpper_ident {c : Char} (h : IdentChar c) : IdentChar (toUpper c) := by
  unfold toUpper
  split
  · rename_i hl
    have h1 : 97 ≤ c.toNat ∧ c.toNat ≤ 122 := by simpa [isLower] using hl
    have : ∀ n < 123, 97 ≤ n → isUpper (Char.ofNat (n - 32)) = true := by decide +kernel
    exact Or.inl (Or.inr (Or.inl ((isUpper_iff _).mp (this _ (by omega) h1.1))))
  · exact h

theorem toUpper_start {c : Char} (h : IdentStart c) : IdentStart (toUpper c) := by
  unfold toUpper
  split
  · rename_i hl
    have h1 : 97 ≤ c.toNat ∧ c.toNat ≤ 122 := by simpa [isLower] using hl
    have : ∀ n < 123, 97 ≤ n → isUpper (Char.ofNat (n - 32)) = true := by decide +kernel
    exact Or.inr (Or.inl ((isUpper_iff _).mp (this _ (by omega) h1.1)))
  · exact h

theorem makeIdentLoop_chars (st : IdentStyle) (len : Nat) (need : Bool) (src : CStr) :
    (∀ c ∈ makeIdentLoop st len need src, IdentChar c) ∧
    (len = 0 → ∀ c, (makeIdentLoop st len need src).head? = some c → IdentStart c) ∧
    (len ≤ 63 → len + (makeIdentLoop st len need src).length ≤ 63) := by
  fun_induction makeIdentLoop st len need src with
  | case1 => simp
  | case2 len need c cs hl hc hu ih =>
    have hid : IdentChar c := by
      simp only [Bool.or_eq_true, Bool.and_eq_true, isLower_iff, isUpper_iff, isDig_iff, beq_iff_eq] at hc
      unfold IdentChar IdentStart
      rcases hc with ((h | h) | h) | h
      · exact Or.inl (Or.inl h)
      · exact Or.inl (Or.inr (Or.inl h))
      · exact Or.inr h.2
      · exact Or.inl (Or.inr (Or.inr h))
    refine ⟨?_, ?_, ?_⟩
    · intro d hd
      rcases List.mem_cons.mp hd with rfl | hd
      · exact toUpper_ident hid
      · exact ih.1 d hd
    · rintro rfl d hd
      simp at hd; subst hd
      simp only [Bool.or_eq_true, Bool.and_eq_true, isLower_iff, isUpper_iff, isDig_iff, beq_iff_eq] at hc
      refine toUpper_start ?_
      unfold IdentStart
      rcases hc with ((h | h) | h) | h
      · exact Or.inl h
      · exact Or.inr (Or.inl h)
      · simp at h
      · exact Or.inr (Or.inr h)
    · intro _
      have := ih.2.2 (by omega)
      simp at this ⊢; omega
  | case3 len need c cs hl hc hu ih =>
    have hid : IdentChar c := by
      simp only [Bool.or_eq_true, Bool.and_eq_true, isLower_iff, isUpper_iff, isDig_iff, beq_iff_eq] at hc
      unfold IdentChar IdentStart
      rcases hc with ((h | h) | h) | h
      · exact Or.inl (Or.inl h)
      · exact Or.inl (Or.inr (Or.inl h))
      · exact Or.inr h.2
      · exact Or.inl (Or.inr (Or.inr h))
    refine ⟨?_, ?_, ?_⟩
    · intro d hd
      rcases List.mem_cons.mp hd with rfl | hd
      · exact hid
      · exact ih.1 d hd
    · rintro rfl d hd
      simp at hd; subst hd
      simp only [Bool.or_eq_true, Bool.and_eq_true, isLower_iff, isUpper_iff, isDig_iff, beq_iff_eq] at hc
      unfold IdentStart
      rcases hc with ((h | h) | h) | h
      · exact Or.inl h
      · exact Or.inr (Or.inl h)
      · simp at h
      · exact Or.inr (Or.inr h)
    · intro _
      have := ih.2.2 (by omega)
      simp at this ⊢; omega
  | case4 len need c cs hl hc hs hu ih =>
    have hus : IdentStart '_' := Or.inr (Or.inr rfl)
    refine ⟨?_, ?_, ?_⟩
    · intro d hd
      rcases List.mem_cons.mp hd with rfl | hd
      · exact Or.inl hus
      · exact ih.1 d hd
    · intro _ d hd
      simp at hd; subst hd; exact hus
    · intro _
      have := ih.2.2 (by omega)
      simp at this ⊢; omega
  | case5 _ _ _ _ _ _ _ _ ih => exact ih
  | case6 _ _ _ _ _ _ _ ih => exact ih
  | case7 => simp

/-- **C51**: the result consists of letters, digits and underscores, does not start with a digit and fits the 64-byte buffer,
for every text and every style. -/
theorem C51_valid (src style : CStr) :
    (∀ c ∈ makeIdent src style, IdentChar c) ∧ (∀ c, (makeIdent src style).head? = some c → IdentStart c) ∧
    (makeIdent src style).length ≤ 63 := by
  unfold makeIdent
  cases src with
  | nil => simp
  | cons c cs =>
    simp only
    split
    · rename_i hd
      obtain ⟨h1, _, h3⟩ := makeIdentLoop_chars (identStyle style) 2 (identStyle style).uppercase cs
      refine ⟨?_, ?_, ?_⟩
      · intro d hd'
        rcases List.mem_cons.mp hd' with rfl | hd'
        · exact Or.inl (Or.inr (Or.inr rfl))
        rcases List.mem_cons.mp hd' with rfl | hd'
        · exact Or.inr ((isDig_iff _).mp hd)
        · exact h1 d hd'
      · intro d hd'
        simp at hd'; subst hd'
        exact Or.inr (Or.inr rfl)
      · have := h3 (by omega)
        simp; omega
    · obtain ⟨h1, h2, h3⟩ := makeIdentLoop_chars (identStyle style) 0 (identStyle style).uppercase (c :: cs)
      exact ⟨h1, h2 rfl, by have := h3 (by omega); omega⟩

theorem makeIdentLoop_id (st : IdentStyle) (hst : st.allUpper = false) (len : Nat) (src : CStr) (h : ∀ c ∈ src, IdentChar c)
    (h0 : len = 0 → ∀ c, src.head? = some c → IdentStart c) (hl : len + src.length ≤ 63) :
    makeIdentLoop st len false src = src := by
  induction src generalizing len with
  | nil => rw [makeIdentLoop]
  | cons c cs ih =>
    have hc := h c (by simp)
    have hcond : (isLower c || isUpper c || (decide (0 < len) && isDig c) || c == '_') = true := by
      simp only [Bool.or_eq_true, Bool.and_eq_true, isLower_iff, isUpper_iff, isDig_iff, beq_iff_eq, decide_eq_true_eq]
      rcases Nat.eq_zero_or_pos len with rfl | hp
      · rcases h0 rfl c rfl with h | h | h
        · exact Or.inl (Or.inl (Or.inl h))
        · exact Or.inl (Or.inl (Or.inr h))
        · exact Or.inr h
      · rcases hc with (h | h | h) | h
        · exact Or.inl (Or.inl (Or.inl h))
        · exact Or.inl (Or.inl (Or.inr h))
        · exact Or.inr h
        · exact Or.inl (Or.inr ⟨hp, h⟩)
    simp at hl
    rw [makeIdentLoop, if_pos (by omega), if_pos hcond, hst]
    simp only [Bool.or_self, Bool.false_eq_true, if_false]
    rw [ih (len + 1) (fun d hd => h d (by simp [hd])) (by omega) (by omega)]

/-- **C51** (partial): a valid identifier of at most 63 characters is unchanged, unless the style asks for capitals. -/
theorem C51_unchanged_partial (src style : CStr) (h : ∀ c ∈ src, IdentChar c) (h0 : ∀ c, src.head? = some c → IdentStart c)
    (hl : src.length ≤ 63) (hs : 'U' ∉ style) : makeIdent src style = src := by
  have hst : identStyle style = { underscore := style.contains '_', uppercase := false, allUpper := false } := by
    unfold identStyle
    have h1 : style.contains 'U' = false := by simpa using hs
    have h2 : hasUBang style = false := by
      clear h1
      induction style with
      | nil => rfl
      | cons c cs ih =>
        have hc : c ≠ 'U' := by rintro rfl; exact hs (by simp)
        unfold hasUBang
        split
        · rename_i heq; simp at heq; exact absurd heq.1 hc
        · rename_i heq; simp at heq; rw [← heq.2]; exact ih (by intro e; exact hs (by simp [e]))
        · rename_i heq; simp at heq
    rw [h1, h2]
  unfold makeIdent
  cases src with
  | nil => rfl
  | cons c cs =>
    have hd : isDig c = false := by
      cases hd : isDig c with
      | false => rfl
      | true =>
        have h1 : 48 ≤ c.toNat ∧ c.toNat ≤ 57 := by simpa [isDig] using hd
        have h2 := h0 c rfl
        unfold IdentStart at h2
        rw [← isLower_iff, ← isUpper_iff] at h2
        rcases h2 with h2 | h2 | rfl
        · have : 97 ≤ c.toNat ∧ c.toNat ≤ 122 := by simpa [isLower] using h2
          omega
        · have : 65 ≤ c.toNat ∧ c.toNat ≤ 90 := by simpa [isUpper] using h2
          omega
        · simp at h1
    simp only [hd, hst]
    exact makeIdentLoop_id _ rfl 0 (c :: cs) h (fun _ => h0) (by simpa using hl)

/-- non-vacuity -/
example : makeIdent "9 lives-of a cat!".toList "_".toList = "_9_lives_of_a_cat".toList ∧
    makeIdent "hello world".toList "U".toList = "HelloWorld".toList ∧ makeIdent "foo_1".toList "".toList = "foo_1".toList := by
  refine ⟨?_, ?_, ?_⟩ <;>
    simp [makeIdent, makeIdentLoop, identStyle, hasUBang, isDig, isLower, isUpper, isSpace, skipSpaceDash, toUpper]

/-- A longer identifier is cut: the bound is needed. -/
theorem C51_bound_needed (src style : CStr) (h : 63 < src.length) : makeIdent src style ≠ src := by
  intro e
  have := (C51_valid src style).2.2
  rw [e] at this; omega

/-- **C51**: `GetIdentLen` is the length of the longest identifier at the beginning. -/
theorem C51_ident_len (p : CStr) :
    getIdentLen p ≤ p.length ∧ (∀ c ∈ p.take (getIdentLen p), IdentChar c) ∧
    (∀ c, (p.take (getIdentLen p)).head? = some c → IdentStart c) ∧
    (∀ k, (∀ c ∈ p.take k, IdentChar c) → (∀ c, (p.take k).head? = some c → IdentStart c) → k ≤ p.length → k ≤ getIdentLen p) := by
  have hst : ∀ c, (isLower c || isUpper c || c == '_') = true ↔ IdentStart c := by
    intro c
    simp only [Bool.or_eq_true, isLower_iff, isUpper_iff, beq_iff_eq, IdentStart, or_assoc]
  have hch : ∀ c, (isLower c || isUpper c || isDig c || c == '_') = true ↔ IdentChar c := by
    intro c
    simp only [Bool.or_eq_true, isLower_iff, isUpper_iff, isDig_iff, beq_iff_eq, IdentStart, IdentChar]
    constructor
    · rintro (((h | h) | h) | h) <;> simp [h]
    · rintro ((h | h | h) | h) <;> simp [h]
  cases p with
  | nil => simp [getIdentLen]
  | cons c cs =>
    rw [getIdentLen]
    split
    · rename_i hc
      have hc := (hst c).mp hc
      have htk : ∀ q : Char → Bool, ∀ l : CStr, l.take (l.takeWhile q).length = l.takeWhile q := by
        intro q l
        induction l with
        | nil => rfl
        | cons x xs ih => simp only [List.takeWhile_cons]; split <;> simp [ih]
      refine ⟨?_, ?_, ?_, ?_⟩
      · have := (List.takeWhile_sublist (fun c => isLower c || isUpper c || isDig c || c == '_') (l := cs)).length_le
        simp at this ⊢; omega
      · rw [Nat.add_comm, List.take_succ_cons, htk]
        intro d hd
        rcases List.mem_cons.mp hd with rfl | hd
        · exact Or.inl hc
        · have := List.all_takeWhile (p := fun c => isLower c || isUpper c || isDig c || c == '_') (l := cs)
          rw [List.all_eq_true] at this
          exact (hch d).mp (this d hd)
      · rw [Nat.add_comm, List.take_succ_cons]
        intro d hd; simp at hd; subst hd; exact hc
      · intro k h1 _ hk
        cases k with
        | zero => omega
        | succ k =>
          rw [List.take_succ_cons] at h1
          simp at hk
          have h2 : ∀ d ∈ cs.take k, (isLower d || isUpper d || isDig d || d == '_') = true :=
            fun d hd => (hch d).mpr (h1 d (by simp [hd]))
          have h3 := List.takeWhile_append_of_pos (l₂ := cs.drop k) h2
          rw [List.take_append_drop] at h3
          have : k ≤ (cs.takeWhile fun c => isLower c || isUpper c || isDig c || c == '_').length := by
            rw [h3]; simp; omega
          omega
    · rename_i hc
      refine ⟨by omega, by simp, by simp, ?_⟩
      intro k _ h2 _
      cases k with
      | zero => omega
      | succ k => exact absurd ((hst c).mpr (h2 c (by simp))) hc

end BX
