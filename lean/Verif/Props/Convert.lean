import Verif.Props.Utils
import Verif.Model.Convert
import Verif.Lemmas.Image
/-
C77: the files that a conversion reads and makes. The statements are about names of files as texts, their extensions (what follows the last dot) and the limit of the operating system for names.
-/
namespace BX
open Spec

/-! ### helpers -/

theorem lastDot_ext (s e : CStr) (h : '.' ∉ e) : lastDot (s ++ '.' :: e) = some ('.' :: e) := by
  unfold lastDot
  rw [if_pos (by simp)]
  have : (s ++ '.' :: e).reverse = e.reverse ++ '.' :: s.reverse := by simp
  rw [this, List.takeWhile_append_of_pos (by intro c hc; simp at hc ⊢; rintro rfl; exact h hc)]
  simp

theorem lastDot_split {s d : CStr} (h : lastDot s = some d) : ∃ t e, d = '.' :: e ∧ '.' ∉ e ∧ s = t ++ d := by
  unfold lastDot at h
  split at h
  · rename_i hm
    cases h
    have h1 := List.takeWhile_append_dropWhile (p := (· != '.')) (l := s.reverse)
    have h2 : '.' ∉ s.reverse.takeWhile (· != '.') := by
      intro hx
      have h3 : ∀ (l : CStr) (x : Char), x ∈ l.takeWhile (· != '.') → x ≠ '.' := by
        intro l
        induction l with
        | nil => simp
        | cons c cs ih =>
          intro x hx
          rw [List.takeWhile_cons] at hx
          split at hx
          · rename_i hc
            rcases List.mem_cons.1 hx with rfl | hx
            · simpa using hc
            · exact ih x hx
          · simp at hx
      exact h3 _ _ hx rfl
    cases hd : s.reverse.dropWhile (· != '.') with
    | nil =>
      rw [hd, List.append_nil] at h1
      rw [h1] at h2
      exact absurd (by simpa using hm) h2
    | cons c cs =>
      have hc : c = '.' := by
        have : ∀ (l : CStr), l.dropWhile (· != '.') = c :: cs → c = '.' := by
          intro l
          induction l with
          | nil => simp
          | cons x xs ih =>
            intro he
            rw [List.dropWhile_cons] at he
            split at he
            · exact ih he
            · rename_i hx
              cases he
              simpa using hx
        exact this _ hd
      rw [hd, hc] at h1
      have h3 := congrArg List.reverse h1
      rw [List.reverse_append, List.reverse_reverse] at h3
      refine ⟨cs.reverse, _, rfl, by simpa using h2, ?_⟩
      rw [List.reverse_cons, List.append_assoc] at h3
      exact h3.symm
  · cases h

/-- ends with the extension -/
theorem lastDot_iff (s e : CStr) (h : '.' ∉ e) : lastDot s = some ('.' :: e) ↔ ∃ t, s = t ++ '.' :: e := by
  constructor
  · intro hd
    obtain ⟨t, e', -, -, h2⟩ := lastDot_split hd
    exact ⟨t, h2⟩
  · rintro ⟨t, rfl⟩
    exact lastDot_ext t e h

theorem stripDotSlash_id {s : CStr} (h : ∀ r, s ≠ '.' :: '/' :: r) : stripDotSlash s = s := by
  unfold stripDotSlash
  split
  · exact absurd rfl (h _)
  · rfl

theorem changeExt_none (s : CStr) (h : s.length < PATH_MAX) (h' : ∀ r, s ≠ '.' :: '/' :: r) : changeExt s none none = .ok s := by
  unfold changeExt joinTarget
  rw [stripDotSlash_id h']
  show Out.ok (s.take (PATH_MAX - 1)) = _
  rw [List.take_of_length_le (by omega)]

theorem changeExt_some (s e x : CStr) (he : '.' ∉ e) (h : (s ++ '.' :: e).length < PATH_MAX) (h' : ∀ r, s ++ '.' :: e ≠ '.' :: '/' :: r) : changeExt (s ++ '.' :: e) (some x) none = .ok (s ++ x) := by
  unfold changeExt joinTarget
  rw [stripDotSlash_id h']
  show Out.ok (beforeLastDot ((s ++ '.' :: e).take (PATH_MAX - 1)) ++ x) = _
  rw [List.take_of_length_le (by omega), beforeLastDot_append _ _ he]

/-! ### C77 -/

/-- C77: the kind of a source is decided by its extension: XML for `.xml`, `.xsd` and `.wsdl`, JSON for `.json`, a writable document for `.xbw` (if the library is built with it), no other. -/
theorem C77_kind (w : Bool) (name : CStr) :
    (selectPlugin w name = some .xml ↔ ∃ s, name = s ++ ".xml".toList ∨ name = s ++ ".xsd".toList ∨ name = s ++ ".wsdl".toList) ∧
    (selectPlugin w name = some .json ↔ ∃ s, name = s ++ ".json".toList) ∧ (selectPlugin w name = some .xbw ↔ w = true ∧ ∃ s, name = s ++ ".xbw".toList) := by
  have e1 := lastDot_iff name "xml".toList (by decide)
  have e2 := lastDot_iff name "xsd".toList (by decide)
  have e3 := lastDot_iff name "wsdl".toList (by decide)
  have e4 := lastDot_iff name "json".toList (by decide)
  have e5 := lastDot_iff name "xbw".toList (by decide)
  change lastDot name = some ".xml".toList ↔ ∃ t, name = t ++ ".xml".toList at e1
  change lastDot name = some ".xsd".toList ↔ ∃ t, name = t ++ ".xsd".toList at e2
  change lastDot name = some ".wsdl".toList ↔ ∃ t, name = t ++ ".wsdl".toList at e3
  change lastDot name = some ".json".toList ↔ ∃ t, name = t ++ ".json".toList at e4
  change lastDot name = some ".xbw".toList ↔ ∃ t, name = t ++ ".xbw".toList at e5
  simp only [exists_or, ← e1, ← e2, ← e3, ← e4, ← e5]
  unfold selectPlugin
  cases lastDot name with
  | none => simp
  | some d =>
    simp only [Option.some.injEq]
    by_cases h1 : d = ".xml".toList
    · subst h1; cases w <;> decide
    · by_cases h2 : d = ".xsd".toList
      · subst h2; cases w <;> decide
      · by_cases h3 : d = ".wsdl".toList
        · subst h3; cases w <;> decide
        · by_cases h4 : d = ".json".toList
          · subst h4; cases w <;> decide
          · by_cases h5 : d = ".xbw".toList
            · subst h5; cases w <;> decide
            · simp only [h1, h2, h3, h4, h5, or_self, if_false, and_false]
              simp

/-- C77: the file that is made is of the kind that was asked for and has its extension. -/
theorem C77_target (dst made : CStr) (target : Target) (h : dstName dst target = .ok made) :
    doAllKind made = .ok target ∧ ∃ s, made = s ++ (match target with | .xb => ".xb".toList | .xbw => ".xbw".toList) := by
  unfold dstName changeExt at h
  obtain ⟨path, -, h⟩ := Out.bind_eq_ok h
  simp only [Out.ok.injEq] at h
  subst h
  refine ⟨?_, beforeLastDot path, by cases target <;> rfl⟩
  unfold doAllKind cAt
  cases target with
  | xb => simp
  | xbw => simp

/-- C77: the file that is made is never the XML or JSON file that is read. -/
theorem C77_source_kept (w : Bool) (src dst : CStr) (target : Target) (c : Conversion) (h : convertNames w src dst target = .ok c) (hk : c.kind ≠ .xbw) (hl : src.length < PATH_MAX) : c.made ≠ c.source := by
  unfold convertNames at h
  obtain ⟨made, h1, h⟩ := Out.bind_eq_ok h
  obtain ⟨kind, h2, h⟩ := Out.bind_eq_ok h
  obtain ⟨h3, s, h4⟩ := C77_target dst made target h1
  cases hs : selectPlugin w src with
  | none => rw [hs] at h; cases h
  | some k =>
    rw [hs] at h
    obtain ⟨source, h5, h⟩ := Out.bind_eq_ok h
    cases h
    intro he
    have he : made = source := he
    have hsub : ∃ u, src = u ++ source := by
      unfold sourceName changeExt joinTarget at h5
      have : (stripDotSlash src).take (PATH_MAX - 1) = source := by simpa [Out.bind] using h5
      have hd : ∀ n (t : CStr), t.length ≤ n → ∃ u, t = u ++ stripDotSlash t := by
        intro n
        induction n with
        | zero => intro t ht; exact ⟨[], by cases t with | nil => rfl | cons _ _ => simp at ht⟩
        | succ n ih =>
          intro t ht
          unfold stripDotSlash
          split
          · rename_i r
            obtain ⟨u, hu⟩ := ih r (by simp at ht; omega)
            exact ⟨'.' :: '/' :: u, by rw [List.cons_append, List.cons_append, ← hu]⟩
          · exact ⟨[], rfl⟩
      obtain ⟨u, hu⟩ := hd src.length src (Nat.le_refl _)
      refine ⟨u, ?_⟩
      rw [← this, List.take_of_length_le (by have := congrArg List.length hu; rw [List.length_append] at this; omega)]
      exact hu
    obtain ⟨u, hu⟩ := hsub
    rw [← he, h4] at hu
    have hk' : selectPlugin w src = none ∨ selectPlugin w src = some .xbw := by
      unfold selectPlugin
      cases target with
      | xb =>
        rw [hu, show u ++ (s ++ ".xb".toList) = (u ++ s) ++ '.' :: "xb".toList by simp, lastDot_ext _ _ (by decide)]
        left; cases w <;> decide
      | xbw =>
        rw [hu, show u ++ (s ++ ".xbw".toList) = (u ++ s) ++ '.' :: "xbw".toList by simp, lastDot_ext _ _ (by decide)]
        cases w
        · left; decide
        · right; decide
    rcases hk' with hk' | hk' <;> rw [hs] at hk'
    · cases hk'
    · cases hk'; exact hk rfl

/-- C77: `GetXB` for `base.xml` and `base.xsd` reads the XML file, makes the file `base.xb` and gives its name. -/
theorem C77_getxb_partial (w : Bool) (base ext : CStr) (he : ext = ".xml".toList ∨ ext = ".xsd".toList) (hl : (base ++ ext).length < PATH_MAX) (hd : ∀ r, base ++ ext ≠ '.' :: '/' :: r) :
    getXB w (base ++ ext) = .ok (some (base ++ ".xb".toList, ⟨.xml, base ++ ext, .xb, base ++ ".xb".toList⟩)) := by
  have key : ∀ x y : Char, (base ++ ['.', 'x', x, y]).length < PATH_MAX → (∀ r, base ++ ['.', 'x', x, y] ≠ '.' :: '/' :: r) →
      selectPlugin w (base ++ ['.', 'x', x, y]) = some .xml → ['.', 'x', x, y] ≠ ".wsdl".toList → (['.', 'x', x, y] = ".xml".toList ∨ ['.', 'x', x, y] = ".xsd".toList) → lastDot (base ++ ['.', 'x', x, y]) = some ['.', 'x', x, y] →
      getXB w (base ++ ['.', 'x', x, y]) = .ok (some (base ++ ".xb".toList, ⟨.xml, base ++ ['.', 'x', x, y], .xb, base ++ ".xb".toList⟩)) := by
    intro x y hl hd hk h1 h2 h3
    have hname : ((base ++ ['.', 'x', x, y]).take ((base ++ ['.', 'x', x, y]).length - 1)).set ((base ++ ['.', 'x', x, y]).length - 2) 'b' = base ++ ".xb".toList := by
      have e1 : (base ++ ['.', 'x', x, y]).length - 1 = base.length + 3 := by simp
      have e2 : (base ++ ['.', 'x', x, y]).length - 2 = base.length + 2 := by simp
      rw [e1, e2, List.take_append, List.take_of_length_le (by omega), show base.length + 3 - base.length = 3 by omega, List.set_append, if_neg (by omega), show base.length + 2 - base.length = 2 by omega]
      rfl
    unfold getXB
    rw [h3]
    simp only
    rw [if_neg (by rintro ⟨-, a, b⟩; rcases h2 with h | h; exact a h; exact b h), if_neg h1, hname]
    unfold convertNames
    have hdst : dstName (base ++ ".xb".toList) .xb = .ok (base ++ ".xb".toList) := by
      refine changeExt_some base "xb".toList ".xb".toList (by decide) (by simp at hl ⊢; omega) fun r hr => ?_
      cases base with
      | nil => simp at hr
      | cons a t =>
        cases t with
        | nil => simp at hr
        | cons b t => simp at hr; exact hd (t ++ ['.', 'x', x, y]) (by simp [hr.1, hr.2.1])
    rw [hdst, Out.ok_bind, (C77_target _ _ _ hdst).1, Out.ok_bind, hk]
    simp only [sourceName, changeExt_none _ hl hd, Out.ok_bind]
    rfl
  rcases he with rfl | rfl
  · exact key 'm' 'l' hl hd (((C77_kind w _).1).2 ⟨base, Or.inl rfl⟩) (by decide) (by decide) (lastDot_ext base "xml".toList (by decide))
  · exact key 's' 'd' hl hd (((C77_kind w _).1).2 ⟨base, Or.inr (Or.inl rfl)⟩) (by decide) (by decide) (lastDot_ext base "xsd".toList (by decide))

/-- C77: `GetXB` refuses every name with another extension (or none), and makes nothing. -/
theorem C77_refused (w : Bool) (name : CStr) : getXB w name = .ok none ↔ ¬ ∃ s, name = s ++ ".xml".toList ∨ name = s ++ ".xsd".toList ∨ name = s ++ ".wsdl".toList := by
  have e1 := lastDot_iff name "xml".toList (by decide)
  have e2 := lastDot_iff name "xsd".toList (by decide)
  have e3 := lastDot_iff name "wsdl".toList (by decide)
  change lastDot name = some ".xml".toList ↔ ∃ t, name = t ++ ".xml".toList at e1
  change lastDot name = some ".xsd".toList ↔ ∃ t, name = t ++ ".xsd".toList at e2
  change lastDot name = some ".wsdl".toList ↔ ∃ t, name = t ++ ".wsdl".toList at e3
  simp only [exists_or, ← e1, ← e2, ← e3]
  unfold getXB
  cases lastDot name with
  | none => simp
  | some d =>
    simp only [Option.some.injEq]
    by_cases h : d ≠ ".wsdl".toList ∧ d ≠ ".xml".toList ∧ d ≠ ".xsd".toList
    · rw [if_pos h]
      exact ⟨fun _ hx => by rcases hx with e | e | e; exact h.2.1 e; exact h.2.2 e; exact h.1 e, fun _ => rfl⟩
    · rw [if_neg h]
      constructor
      · intro hx
        obtain ⟨c, -, hx⟩ := Out.bind_eq_ok hx
        cases hx
      · intro hx
        exact absurd ⟨fun e => hx (Or.inr (Or.inr e)), fun e => hx (Or.inl e), fun e => hx (Or.inr (Or.inl e))⟩ h

/-- C77 is false for `.wsdl`: `GetXB` makes the file `base.xb` but gives the name `base.wb`. -/
theorem C77_wsdl_false (w : Bool) (base : CStr) (hl : (base ++ ".wsdl".toList).length < PATH_MAX) (hd : ∀ r, base ++ ".wsdl".toList ≠ '.' :: '/' :: r) :
    getXB w (base ++ ".wsdl".toList) = .ok (some (base ++ ".wb".toList, ⟨.xml, base ++ ".wsdl".toList, .xb, base ++ ".xb".toList⟩)) := by
  have hname : ((base ++ ".wsdl".toList).take ((base ++ ".wsdl".toList).length - 1 - 1)).set ((base ++ ".wsdl".toList).length - 1 - 2) 'b' = base ++ ".wb".toList := by
    have e1 : (base ++ ".wsdl".toList).length - 1 - 1 = base.length + 3 := by simp
    have e2 : (base ++ ".wsdl".toList).length - 1 - 2 = base.length + 2 := by simp
    rw [e1, e2, List.take_append, List.take_of_length_le (by omega), show base.length + 3 - base.length = 3 by omega, List.set_append, if_neg (by omega), show base.length + 2 - base.length = 2 by omega]
    rfl
  unfold getXB
  rw [show lastDot (base ++ ".wsdl".toList) = some ".wsdl".toList from lastDot_ext base "wsdl".toList (by decide)]
  simp only
  rw [if_neg (by rintro ⟨a, -⟩; exact a rfl), if_pos trivial, hname]
  unfold convertNames
  have hdst : dstName (base ++ ".wb".toList) .xb = .ok (base ++ ".xb".toList) := by
    refine changeExt_some base "wb".toList ".xb".toList (by decide) (by simp at hl ⊢; omega) fun r hr => ?_
    cases base with
    | nil => simp at hr
    | cons a t =>
      cases t with
      | nil => simp at hr
      | cons b t => simp at hr; exact hd (t ++ ".wsdl".toList) (by simp [hr.1, hr.2.1])
  rw [hdst, Out.ok_bind, (C77_target _ _ _ hdst).1, Out.ok_bind, ((C77_kind w _).1).2 ⟨base, Or.inr (Or.inr rfl)⟩]
  simp only [sourceName, changeExt_none _ hl hd, Out.ok_bind]
  rfl

/-- C77: different sources may be converted to one file: `base.xml` and `base.xsd` both make `base.xb`. -/
theorem C77_collision_false (w : Bool) (base : CStr) (hl : (base ++ ".xml".toList).length < PATH_MAX) (hd : ∀ x, base ++ ".xml".toList ≠ '.' :: '/' :: x) :
    ∃ a b, getXB w (base ++ ".xml".toList) = .ok (some a) ∧ getXB w (base ++ ".xsd".toList) = .ok (some b) ∧ a.2.source ≠ b.2.source ∧ a.2.made = b.2.made := by
  refine ⟨_, _, C77_getxb_partial w base _ (Or.inl rfl) hl hd, C77_getxb_partial w base _ (Or.inr rfl) (by simpa using hl) (fun r hr => ?_), ?_, rfl⟩
  · cases base with
    | nil => simp at hr
    | cons a t =>
      cases t with
      | nil => simp at hr
      | cons b t => simp at hr; exact hd (t ++ ".xml".toList) (by simp [hr.1, hr.2.1])
  · show base ++ ".xml".toList ≠ base ++ ".xsd".toList
    simp

/-- C77 is false for a writable document converted to a writable document of the same name: the file that is made is the source. -/
theorem C77_same_file_false (base : CStr) (hl : (base ++ ".xbw".toList).length < PATH_MAX) (hd : ∀ r, base ++ ".xbw".toList ≠ '.' :: '/' :: r) :
    convertNames true (base ++ ".xbw".toList) (base ++ ".xbw".toList) .xbw = .ok ⟨.xbw, base ++ ".xbw".toList, .xbw, base ++ ".xbw".toList⟩ := by
  have hdst : dstName (base ++ ".xbw".toList) .xbw = .ok (base ++ ".xbw".toList) := changeExt_some base "xbw".toList ".xbw".toList (by decide) hl hd
  unfold convertNames
  rw [hdst, Out.ok_bind, (C77_target _ _ _ hdst).1, Out.ok_bind, ((C77_kind true _).2.2).2 ⟨rfl, base, rfl⟩]
  simp only [sourceName, changeExt_none _ hl hd, Out.ok_bind]
  rfl

/-- C77 is false for every source of an unknown kind: the conversion uses a null pointer. -/
theorem C77_unknown_false (w : Bool) (src dst : CStr) (target : Target) (h : selectPlugin w src = none) : convertNames w src dst target = .ub := by
  unfold convertNames
  have : ∃ made, dstName dst target = .ok made := ⟨_, rfl⟩
  obtain ⟨made, h1⟩ := this
  rw [h1, Out.ok_bind, (C77_target _ _ _ h1).1, Out.ok_bind, h]

/-- the hypotheses are met -/
example : getXB true "data/a.b.xml".toList = .ok (some ("data/a.b.xb".toList, ⟨.xml, "data/a.b.xml".toList, .xb, "data/a.b.xb".toList⟩)) :=
  C77_getxb_partial true "data/a.b".toList _ (Or.inl rfl) (by decide) (by simp)
example : getXB true "data/a.txt".toList = .ok none := by decide +kernel
example : convertNames true "a.json".toList "out/b.json".toList .xbw = .ok ⟨.json, "a.json".toList, .xbw, "out/b.xbw".toList⟩ := by decide +kernel
example : selectPlugin true "a.xb".toList = none := by decide +kernel

end BX
