import Verif.Model.Jsmn
/-
The two passes of the tokenizer keep in step.
-/
namespace BX

theorem Except.bind_eq_ok' {ε α β : Type} {x : Except ε α} {f : α → Except ε β} {b : β} (h : (x >>= f) = .ok b) : ∃ a, x = .ok a ∧ f a = .ok b := by
  cases x with
  | error e => cases h
  | ok a => exact ⟨a, rfl, h⟩

theorem JP.bump_cases (s : JP) (p : Int) : (s.bump p = .error .ub) ∨ ∃ s', s.bump p = .ok s' ∧ s'.toks.length = s.toks.length ∧ s'.count = s.count ∧ s'.sup = s.sup := by
  unfold JP.bump
  split
  · exact Or.inr ⟨s, rfl, rfl, rfl, rfl⟩
  · split
    · exact Or.inl rfl
    · split
      · exact Or.inl rfl
      · exact Or.inr ⟨_, rfl, by simp, rfl, rfl⟩

theorem JP.close_cases {s : JP} {type : JT} {pos : Nat} : ∀ (fuel : Nat) (i : Int),
    (∃ e, s.close type pos fuel i = .error e ∧ e ≠ .nomem) ∨ ∃ s', s.close type pos fuel i = .ok s' ∧ s'.toks.length = s.toks.length ∧ s'.count = s.count
  | 0, i => Or.inl ⟨.ub, rfl, by decide⟩
  | fuel+1, i => by
    rw [JP.close]
    split
    · exact Or.inl ⟨.ub, rfl, by decide⟩
    · split
      · exact Or.inl ⟨.ub, rfl, by decide⟩
      · split
        · split
          · exact Or.inl ⟨.inval, rfl, by decide⟩
          · exact Or.inr ⟨_, rfl, by simp, rfl⟩
        · split
          · split
            · exact Or.inl ⟨.inval, rfl, by decide⟩
            · exact Or.inr ⟨_, rfl, rfl, rfl⟩
          · exact JP.close_cases fuel _

/-- allocating a token and counting it in its parent -/
theorem JP.alloc_bump (s : JP) (k : Nat) (t : Tok) :
    (s.alloc k t = .error .nomem ∧ s.toks.length ≥ k) ∨
    ∃ s1, s.alloc k t = .ok s1 ∧ s1.toks = s.toks ++ [t] ∧ s1.count = s.count ∧ s1.sup = s.sup ∧
      ((s1.bump s.sup = .error .ub) ∨ ∃ s2, s1.bump s.sup = .ok s2 ∧ s2.toks.length = s.toks.length + 1 ∧ s2.count = s.count ∧ s2.sup = s.sup) := by
  unfold JP.alloc
  split
  · exact Or.inl ⟨rfl, by assumption⟩
  · refine Or.inr ⟨_, rfl, rfl, rfl, rfl, ?_⟩
    rcases JP.bump_cases { s with toks := s.toks ++ [t] } s.sup with h | ⟨s', h1, h2, h3, h4⟩
    · exact Or.inl h
    · exact Or.inr ⟨s', h1, by simpa using h2, h3, h4⟩

/-- one pass of the loop in both modes -/
theorem JP.step_sim {s0 s1 : JP} (k pos : Nat) (c : UInt8) (r : List UInt8) (h0 : s0.count = s1.count) (h1 : s1.toks.length = s1.count) :
    match s0.step none pos c r with
    | .error e => s1.step (some k) pos c r = .error e
    | .ok (s0', pos', r') => s0.count ≤ s0'.count ∧
      ((∃ e, s1.step (some k) pos c r = .error e ∧ (e = .nomem → s1.toks.length ≥ k ∧ s0'.count = s0.count + 1)) ∨
       ∃ s1', s1.step (some k) pos c r = .ok (s1', pos', r') ∧ s0'.count = s1'.count ∧ s1'.toks.length = s1'.count) := by
  unfold JP.step
  by_cases c1 : c = 123 ∨ c = 91
  · rw [if_pos c1, if_pos c1]
    refine ⟨by simp, ?_⟩
    simp only
    rcases s1.alloc_bump k ⟨if c = 123 then .object else .array, pos, -1, 0, s1.sup⟩ with ⟨e, hk⟩ | ⟨s', e, -, -, -, hb | ⟨s2, hb, q1, q2, q3⟩⟩
    · rw [e]; exact Or.inl ⟨.nomem, rfl, fun _ => ⟨hk, by trivial⟩⟩
    · rw [e]; refine Or.inl ⟨.ub, ?_, fun h => by cases h⟩
      show (JP.bump s' s1.sup >>= _) = _
      rw [hb]; rfl
    · rw [e]; refine Or.inr ⟨{ s2 with sup := (s2.toks.length : Int) - 1, count := s1.count + 1 }, ?_, ?_, ?_⟩
      · show (JP.bump s' s1.sup >>= _) = _
        rw [hb]; rfl
      · simp [h0]
      · simp [q1, h1]
  rw [if_neg c1, if_neg c1]
  by_cases c2 : c = 125 ∨ c = 93
  · rw [if_pos c2, if_pos c2]
    refine ⟨by simp, ?_⟩
    simp only
    split
    · exact Or.inl ⟨.inval, rfl, fun h => by cases h⟩
    · rcases JP.close_cases (s := s1) (type := if c = 125 then .object else .array) (pos := pos) s1.toks.length ((s1.toks.length : Int) - 1) with ⟨e, h, hn⟩ | ⟨s', h, q1, q2⟩
      · rw [h]; exact Or.inl ⟨e, rfl, fun he => absurd he hn⟩
      · rw [h]; exact Or.inr ⟨s', rfl, by rw [h0, q2], by rw [q1, q2, h1]⟩
  rw [if_neg c2, if_neg c2]
  by_cases c3 : c = 34
  · rw [if_pos c3, if_pos c3]
    cases hl : strLen .plain r with
    | error e => rfl
    | ok n =>
      refine ⟨by simp, ?_⟩
      simp only
      rcases s1.alloc_bump k ⟨.string, (pos : Int) + 1, (pos : Int) + 1 + n, 0, s1.sup⟩ with ⟨e, hk⟩ | ⟨s', e, -, -, -, hb | ⟨s2, hb, q1, q2, q3⟩⟩
      · refine Or.inl ⟨.nomem, ?_, fun _ => ⟨hk, by trivial⟩⟩
        show (JP.alloc s1 k _ >>= _) = _
        rw [e]; rfl
      · refine Or.inl ⟨.ub, ?_, fun h => by cases h⟩
        show (JP.alloc s1 k _ >>= _) = _
        rw [e]
        show (JP.bump s' s1.sup >>= _) = _
        rw [hb]; rfl
      · refine Or.inr ⟨{ s2 with count := s1.count + 1 }, ?_, ?_, ?_⟩
        · show (JP.alloc s1 k _ >>= _) = _
          rw [e]
          show (JP.bump s' s1.sup >>= _) = _
          rw [hb]; rfl
        · simp [h0]
        · simp [q1, h1]
  rw [if_neg c3, if_neg c3]
  by_cases c4 : c = 9 ∨ c = 13 ∨ c = 10 ∨ c = 32
  · rw [if_pos c4, if_pos c4]
    exact ⟨Nat.le_refl _, Or.inr ⟨s1, rfl, h0, h1⟩⟩
  rw [if_neg c4, if_neg c4]
  by_cases c5 : c = 58
  · rw [if_pos c5, if_pos c5]
    exact ⟨Nat.le_refl _, Or.inr ⟨_, rfl, h0, h1⟩⟩
  rw [if_neg c5, if_neg c5]
  by_cases c6 : c = 44
  · rw [if_pos c6, if_pos c6]
    refine ⟨Nat.le_refl _, ?_⟩
    simp only
    split
    · exact Or.inr ⟨s1, rfl, h0, h1⟩
    · split
      · exact Or.inl ⟨.ub, rfl, fun h => by cases h⟩
      · split
        · exact Or.inl ⟨.ub, rfl, fun h => by cases h⟩
        · split
          · exact Or.inr ⟨_, rfl, h0, h1⟩
          · exact Or.inr ⟨_, rfl, h0, h1⟩
  rw [if_neg c6, if_neg c6]
  cases hl : primLen (c :: r) with
  | none => rfl
  | some n =>
    refine ⟨by simp, ?_⟩
    simp only
    rcases s1.alloc_bump k ⟨.primitive, pos, (pos : Int) + n, 0, s1.sup⟩ with ⟨e, hk⟩ | ⟨s', e, -, -, -, hb | ⟨s2, hb, q1, q2, q3⟩⟩
    · refine Or.inl ⟨.nomem, ?_, fun _ => ⟨hk, by trivial⟩⟩
      rw [e]; rfl
    · refine Or.inl ⟨.ub, ?_, fun h => by cases h⟩
      rw [e]
      show (JP.bump s' s1.sup >>= _) = _
      rw [hb]; rfl
    · refine Or.inr ⟨{ s2 with count := s1.count + 1 }, ?_, ?_, ?_⟩
      · rw [e]
        show (JP.bump s' s1.sup >>= _) = _
        rw [hb]; rfl
      · simp [h0]
      · simp [q1, h1]

theorem JP.finish_cases (cap : Option Nat) (s : JP) : s.finish cap = .error .part ∨ s.finish cap = .ok s := by
  unfold JP.finish; split <;> simp

theorem JP.finish_none (s : JP) : s.finish none = .ok s := by simp [JP.finish]

theorem JP.loop_sim (k : Nat) : ∀ (fuel : Nat) (s0 s1 : JP) (pos : Nat) (r : List UInt8), s0.count = s1.count → s1.toks.length = s1.count →
    (∀ p0, JP.loop none fuel s0 pos r = .ok p0 → s0.count ≤ p0.count ∧ (p0.count ≤ k → JP.loop (some k) fuel s1 pos r ≠ .error .nomem)) ∧
    (∀ p1, JP.loop (some k) fuel s1 pos r = .ok p1 → ∃ p0, JP.loop none fuel s0 pos r = .ok p0 ∧ p0.count = p1.count ∧ p1.toks.length = p1.count) := by
  intro fuel
  have fin : ∀ s0 s1 : JP, s0.count = s1.count → s1.toks.length = s1.count →
      (∀ p0, s0.finish none = .ok p0 → s0.count ≤ p0.count ∧ (p0.count ≤ k → s1.finish (some k) ≠ .error .nomem)) ∧
      (∀ p1, s1.finish (some k) = .ok p1 → ∃ p0, s0.finish none = .ok p0 ∧ p0.count = p1.count ∧ p1.toks.length = p1.count) := by
    intro s0 s1 h0 h1
    rw [JP.finish_none]
    refine ⟨fun p0 h => ?_, fun p1 h => ?_⟩
    · cases h
      refine ⟨Nat.le_refl _, fun _ => ?_⟩
      rcases s1.finish_cases (some k) with h | h <;> rw [h] <;> intro hc <;> cases hc
    · rcases s1.finish_cases (some k) with h' | h' <;> rw [h'] at h <;> cases h
      exact ⟨s0, rfl, h0, h1⟩
  induction fuel with
  | zero => intro s0 s1 pos r h0 h1; exact fin s0 s1 h0 h1
  | succ m ih =>
    intro s0 s1 pos r h0 h1
    cases r with
    | nil => exact fin s0 s1 h0 h1
    | cons c r =>
      rw [JP.loop, JP.loop]
      by_cases hc : c = 0
      · rw [if_pos hc, if_pos hc]; exact fin s0 s1 h0 h1
      · rw [if_neg hc, if_neg hc]
        have hs := JP.step_sim (s0 := s0) (s1 := s1) k pos c r h0 h1
        cases hx : s0.step none pos c r with
        | error e =>
          rw [hx] at hs
          simp only at hs
          rw [hs]
          refine ⟨fun p0 h => ?_, fun p1 h => ?_⟩ <;> cases h
        | ok w =>
          obtain ⟨s0', pos', r'⟩ := w
          rw [hx] at hs
          simp only at hs
          obtain ⟨hm, ⟨e, he, hn⟩ | ⟨s1', he, q1, q2⟩⟩ := hs
          · rw [he]
            refine ⟨fun p0 h => ?_, fun p1 h => by cases h⟩
            have h' : JP.loop none m s0' pos' r' = .ok p0 := h
            have hle : s0'.count ≤ p0.count := ((ih s0' ⟨List.replicate s0'.count ⟨.array, 0, 0, 0, 0⟩, 0, s0'.count⟩ pos' r' rfl (by simp)).1 p0 h').1
            refine ⟨by omega, fun hk hc => ?_⟩
            have hc' : e = .nomem := by simpa using hc
            have := hn hc'
            omega
          · rw [he]
            obtain ⟨i1, i2⟩ := ih s0' s1' pos' r' q1 q2
            refine ⟨fun p0 h => ?_, fun p1 h => i2 p1 h⟩
            obtain ⟨a, b⟩ := i1 p0 h
            exact ⟨by omega, b⟩

/-- every pass consumes a character -/
theorem primLen_pos {c : UInt8} {r : List UInt8} {n : Nat} (h0 : c ≠ 0) (hd : jDelim c = false) (h : primLen (c :: r) = some n) : 0 < n := by
  rw [primLen, if_neg h0, if_neg (by simp [hd])] at h
  split at h
  · cases h
  · cases hr : primLen r with
    | none => rw [hr] at h; cases h
    | some m => rw [hr] at h; simp at h; omega

theorem JP.step_shorter {cap : Option Nat} {s s' : JP} {pos pos' : Nat} {c : UInt8} {r r' : List UInt8} (h0 : c ≠ 0) (h : s.step cap pos c r = .ok (s', pos', r')) : r'.length ≤ r.length := by
  unfold JP.step at h
  split at h
  · split at h
    · cases h; omega
    · obtain ⟨a, -, h⟩ := Except.bind_eq_ok' h
      obtain ⟨b, -, h⟩ := Except.bind_eq_ok' h
      cases h; omega
  · split at h
    · split at h
      · cases h; omega
      · split at h
        · cases h
        · obtain ⟨a, -, h⟩ := Except.bind_eq_ok' h
          cases h; omega
    · split at h
      · obtain ⟨n, -, h⟩ := Except.bind_eq_ok' h
        split at h
        · cases h; simp
        · obtain ⟨a, -, h⟩ := Except.bind_eq_ok' h
          obtain ⟨b, -, h⟩ := Except.bind_eq_ok' h
          cases h; simp
      · next hn1 hn2 hn3 =>
        split at h
        · cases h; omega
        · next hn4 =>
          split at h
          · cases h; omega
          · next hn5 =>
            split at h
            · split at h
              · cases h; omega
              · split at h
                · cases h; omega
                · split at h
                  · cases h
                  · split at h
                    · cases h
                    · split at h <;> cases h <;> omega
            · next hn6 =>
              have hd : jDelim c = false := by
                unfold jDelim
                simp only [not_or] at hn2 hn4
                simp [hn2, hn4, hn5, hn6]
              split at h
              · cases h
              · next n hp =>
                have := primLen_pos h0 hd hp
                split at h
                · cases h; simp; omega
                · obtain ⟨a, -, h⟩ := Except.bind_eq_ok' h
                  obtain ⟨b, -, h⟩ := Except.bind_eq_ok' h
                  cases h; simp; omega

/-- more fuel than characters changes nothing -/
theorem JP.loop_fuel (cap : Option Nat) : ∀ (fuel : Nat) (s : JP) (pos : Nat) (r : List UInt8), r.length ≤ fuel → JP.loop cap fuel s pos r = JP.loop cap r.length s pos r := by
  intro fuel
  induction fuel using Nat.strongRecOn with
  | _ fuel ih =>
    intro s pos r hl
    cases r with
    | nil => cases fuel <;> rfl
    | cons c r =>
      obtain ⟨m, rfl⟩ : ∃ m, fuel = m + 1 := ⟨fuel - 1, by simp at hl; omega⟩
      show _ = JP.loop cap (r.length + 1) s pos (c :: r)
      rw [JP.loop, JP.loop]
      by_cases hc : c = 0
      · rw [if_pos hc, if_pos hc]
      · rw [if_neg hc, if_neg hc]
        cases hx : s.step cap pos c r with
        | error e => rfl
        | ok w =>
          obtain ⟨s', pos', r'⟩ := w
          have := JP.step_shorter hc hx
          simp only [List.length_cons] at hl
          show JP.loop cap m s' pos' r' = JP.loop cap r.length s' pos' r'
          rw [ih m (by omega) s' pos' r' (by omega)]
          by_cases e : r.length = m
          · rw [e, ih m (by omega) s' pos' r' (by omega)]
          · rw [ih r.length (by omega) s' pos' r' this]

/-! ### the tokens -/

/-- a token with index `i` when the tokenizer is at `pos` -/
structure Tok.Fits (pos i : Nat) (t : Tok) : Prop where
  parent_lo : -1 ≤ t.parent
  parent_hi : t.parent < i
  start_lo : 0 ≤ t.start
  start_hi : t.start < pos
  ends : ((t.type = .object ∨ t.type = .array) ∧ t.end_ = -1) ∨ (t.start ≤ t.end_ ∧ t.end_ ≤ pos)
  wide : t.type ≠ .string → t.end_ = -1 ∨ t.start < t.end_

theorem Tok.Fits.mono {pos pos' i : Nat} {t : Tok} (h : t.Fits pos i) (hp : pos ≤ pos') : t.Fits pos' i := by
  obtain ⟨h1, h2, h3, h4, h5, h6⟩ := h
  refine ⟨h1, h2, h3, by omega, ?_, h6⟩
  rcases h5 with h5 | h5
  · exact Or.inl h5
  · exact Or.inr ⟨h5.1, by omega⟩

/-- the tokens when the tokenizer is at `pos` -/
structure JP.Inv (s : JP) (pos : Nat) : Prop where
  fits : ∀ (i : Nat) (t : Tok), s.toks[i]? = some t → t.Fits pos i
  sorted : s.toks.Pairwise fun a b => a.start < b.start
  sup_lo : -1 ≤ s.sup
  sup_hi : s.sup < s.toks.length

theorem JP.Inv.mono {s : JP} {pos pos' : Nat} (h : s.Inv pos) (hp : pos ≤ pos') : s.Inv pos' :=
  ⟨fun i t ht => (h.fits i t ht).mono hp, h.sorted, h.sup_lo, h.sup_hi⟩

/-- changing a token without moving its start -/
theorem JP.Inv.set {s : JP} {pos i : Nat} {t t' : Tok} (h : s.Inv pos) (ht : s.toks[i]? = some t) (hs : t'.start = t.start) (hf : t'.Fits pos i) (sup : Int) (h1 : -1 ≤ sup) (h2 : sup < s.toks.length)
    (c : Nat) : JP.Inv ⟨s.toks.set i t', sup, c⟩ pos := by
  refine ⟨fun j u hu => ?_, ?_, h1, by simpa using h2⟩
  · simp only [List.getElem?_set] at hu
    split at hu
    · next e =>
      subst e
      split at hu <;> cases hu
      exact hf
    · exact h.fits j u hu
  · have hk : (s.toks.set i t').map Tok.start = s.toks.map Tok.start := by
      rw [List.map_set, hs]
      apply List.ext_getElem?
      intro j
      rw [List.getElem?_set]
      split
      · next e =>
        subst e
        rw [List.getElem?_map, ht]
        have : i < s.toks.length := by
          rw [List.getElem?_eq_some_iff] at ht; exact ht.1
        simp [this]
      · rfl
    have : (s.toks.map Tok.start).Pairwise (· < ·) := List.pairwise_map.2 h.sorted
    rw [← hk] at this
    exact List.pairwise_map.1 this

theorem JP.Inv.bump {s : JP} {pos : Nat} {p : Int} (h : s.Inv pos) (h1 : -1 ≤ p) (h2 : p < s.toks.length) : ∃ s', s.bump p = .ok s' ∧ s'.Inv pos ∧ s'.toks.length = s.toks.length ∧ s'.sup = s.sup := by
  unfold JP.bump
  split
  · exact ⟨s, rfl, h, rfl, rfl⟩
  · next hp =>
    have hlt : p.toNat < s.toks.length := by omega
    rw [List.getElem?_eq_getElem hlt]
    simp only
    rw [if_neg (by omega)]
    have hg := List.getElem?_eq_getElem hlt
    have hf := h.fits _ _ hg
    exact ⟨_, rfl, h.set (t' := { s.toks[p.toNat] with size := s.toks[p.toNat].size + 1 }) hg rfl ⟨hf.1, hf.2, hf.3, hf.4, hf.5, hf.6⟩ s.sup h.sup_lo h.sup_hi s.count, by simp, rfl⟩

/-- a new token -/
theorem JP.Inv.push {s : JP} {pos pos' : Nat} {t : Tok} (h : s.Inv pos) (hp : pos ≤ pos') (ht : t.Fits pos' s.toks.length) (hs : pos ≤ t.start) : JP.Inv ⟨s.toks ++ [t], s.sup, s.count⟩ pos' := by
  refine ⟨fun i u hu => ?_, ?_, h.sup_lo, by have := h.sup_hi; simp only [List.length_append]; simp; omega⟩
  · by_cases hi : i < s.toks.length
    · rw [List.getElem?_append_left hi] at hu
      exact (h.fits i u hu).mono hp
    · rw [List.getElem?_append_right (by omega)] at hu
      cases hj : i - s.toks.length with
      | zero => rw [hj] at hu; cases hu; rw [show i = s.toks.length by omega]; exact ht
      | succ j => rw [hj] at hu; cases hu
  · rw [List.pairwise_append]
    refine ⟨h.sorted, by simp, fun a ha b hb => ?_⟩
    simp only [List.mem_singleton] at hb
    subst hb
    obtain ⟨i, hi⟩ := List.mem_iff_getElem?.1 ha
    have := (h.fits i a hi).start_hi
    omega

theorem JP.Inv.alloc_bump {s : JP} {pos pos' k : Nat} {t : Tok} (h : s.Inv pos) (hp : pos ≤ pos') (ht : t.Fits pos' s.toks.length) (hs : pos ≤ t.start) :
    s.alloc k t = .error .nomem ∨ ∃ s1 s2, s.alloc k t = .ok s1 ∧ s1.bump s.sup = .ok s2 ∧ s2.Inv pos' ∧ s2.toks.length = s.toks.length + 1 ∧ s2.sup = s.sup := by
  unfold JP.alloc
  split
  · exact Or.inl rfl
  · right
    have hn := h.push hp ht hs
    obtain ⟨s2, e, i2, l2, u2⟩ := hn.bump (p := s.sup) h.sup_lo (by have := h.sup_hi; simp; omega)
    exact ⟨_, s2, rfl, e, i2, by simpa using l2, u2⟩

theorem JP.Inv.close {s : JP} {pos : Nat} {type : JT} (h : s.Inv pos) : ∀ (fuel : Nat) (i : Int), 0 ≤ i → i < s.toks.length → i < fuel →
    s.close type pos fuel i = .error .inval ∨ ∃ s', s.close type pos fuel i = .ok s' ∧ s'.Inv (pos + 1) := by
  intro fuel
  induction fuel with
  | zero => intro i h1 _ h3; omega
  | succ m ih =>
    intro i h1 h2 h3
    have hlt : i.toNat < s.toks.length := by omega
    have hg := List.getElem?_eq_getElem hlt
    have hf := h.fits _ _ hg
    rw [JP.close, if_neg (by omega), hg]
    simp only
    split
    · next ho =>
      split
      · exact Or.inl rfl
      · right
        refine ⟨_, rfl, (h.mono (Nat.le_succ pos)).set (t' := { s.toks[i.toNat] with end_ := (pos : Int) + 1 }) hg rfl ?_ _ hf.parent_lo (by have := hf.parent_hi; omega) s.count⟩
        have := hf.start_hi
        exact ⟨hf.1, hf.2, hf.3, by simp only; omega, Or.inr ⟨by simp only; omega, by simp⟩, fun _ => Or.inr (by simp only; omega)⟩
    · split
      · split
        · exact Or.inl rfl
        · exact Or.inr ⟨s, rfl, h.mono (Nat.le_succ pos)⟩
      · next hp =>
        have h4 := hf.parent_lo
        have h5 := hf.parent_hi
        exact ih _ (by omega) (by omega) (by omega)

theorem strLen_le : ∀ (r : List UInt8) (a : StrAt) (n : Nat), strLen a r = .ok n → n + 1 ≤ r.length
  | [], a, n, h => by cases a <;> cases h
  | c :: r, a, n, h => by
    have hm : ∀ b, (strLen b r).map (· + 1) = .ok n → n + 1 ≤ r.length + 1 := by
      intro b hb
      cases hs : strLen b r with
      | error e => rw [hs] at hb; cases hb
      | ok m =>
        rw [hs] at hb
        have : m + 1 = n := by simpa [Except.map] using hb
        have := strLen_le r b m hs
        omega
    simp only [List.length_cons]
    cases a with
    | plain =>
      rw [strLen] at h
      split at h
      · cases h
      · split at h
        · cases h; omega
        · exact hm _ h
    | esc =>
      rw [strLen] at h
      split at h
      · exact hm _ h
      · split at h
        · exact hm _ h
        · cases h
    | hex m =>
      rw [strLen] at h
      split at h
      · cases h
      · split at h
        · exact hm _ h
        · cases h

theorem strLen_err : ∀ (r : List UInt8) (a : StrAt) (e : JErr), strLen a r = .error e → e = .part ∨ e = .inval
  | [], a, e, h => by cases a <;> cases h <;> exact Or.inl rfl
  | c :: r, a, e, h => by
    have hm : ∀ b, (strLen b r).map (· + 1) = .error e → e = .part ∨ e = .inval := by
      intro b hb
      cases hs : strLen b r with
      | error e' =>
        rw [hs] at hb
        have : e' = e := by simpa [Except.map] using hb
        subst this
        exact strLen_err r b e' hs
      | ok m => rw [hs] at hb; cases hb
    cases a with
    | plain =>
      rw [strLen] at h
      split at h
      · cases h; exact Or.inl rfl
      · split at h
        · cases h
        · exact hm _ h
    | esc =>
      rw [strLen] at h
      split at h
      · exact hm _ h
      · split at h
        · exact hm _ h
        · cases h; exact Or.inr rfl
    | hex m =>
      rw [strLen] at h
      split at h
      · cases h; exact Or.inl rfl
      · split at h
        · exact hm _ h
        · cases h; exact Or.inr rfl

theorem primLen_le : ∀ (r : List UInt8) (n : Nat), primLen r = some n → n ≤ r.length
  | [], n, h => by cases h; simp
  | c :: r, n, h => by
    rw [primLen] at h
    split at h
    · cases h; simp
    · split at h
      · cases h; simp
      · split at h
        · cases h
        · cases hr : primLen r with
          | none => rw [hr] at h; cases h
          | some m =>
            rw [hr] at h
            have := primLen_le r m hr
            simp at h ⊢; omega

/-- one pass keeps the tokens in order and accesses none that does not exist -/
theorem JP.Inv.step {s : JP} {k pos : Nat} {c : UInt8} {r : List UInt8} (h : s.Inv pos) (h0 : c ≠ 0) :
    (∃ e, s.step (some k) pos c r = .error e ∧ e ≠ .ub) ∨ ∃ s' pos' r', s.step (some k) pos c r = .ok (s', pos', r') ∧ s'.Inv pos' ∧ pos' + r'.length = pos + (r.length + 1) := by
  have hlo := h.sup_lo
  have hhi := h.sup_hi
  unfold JP.step
  by_cases c1 : c = 123 ∨ c = 91
  · rw [if_pos c1]
    simp only
    rcases h.alloc_bump (pos' := pos + 1) (k := k) (t := ⟨if c = 123 then .object else .array, pos, -1, 0, s.sup⟩) (by omega)
      ⟨hlo, hhi, by simp only; omega, by simp only; omega, Or.inl ⟨by simp only; split <;> simp, rfl⟩, fun _ => Or.inl rfl⟩ (by simp) with e | ⟨s1, s2, e, e', i2, l2, u2⟩
    · rw [e]; exact Or.inl ⟨.nomem, rfl, by decide⟩
    · rw [e]
      refine Or.inr ⟨⟨s2.toks, (s2.toks.length : Int) - 1, s.count + 1⟩, pos + 1, r, ?_, ⟨i2.fits, i2.sorted, by simp only; omega, by simp only; omega⟩, by omega⟩
      show (JP.bump s1 s.sup >>= _) = _
      rw [e']; rfl
  rw [if_neg c1]
  by_cases c2 : c = 125 ∨ c = 93
  · rw [if_pos c2]
    simp only
    split
    · exact Or.inl ⟨.inval, rfl, by decide⟩
    · rcases h.close (type := if c = 125 then .object else .array) s.toks.length ((s.toks.length : Int) - 1) (by omega) (by omega) (by omega) with e | ⟨s', e, i⟩
      · rw [e]; exact Or.inl ⟨.inval, rfl, by decide⟩
      · rw [e]; exact Or.inr ⟨s', _, _, rfl, i, by omega⟩
  rw [if_neg c2]
  by_cases c3 : c = 34
  · rw [if_pos c3]
    cases hl : strLen .plain r with
    | error e =>
      refine Or.inl ⟨e, rfl, ?_⟩
      rcases strLen_err r _ e hl with h | h <;> rw [h] <;> decide
    | ok n =>
      have hn := strLen_le r _ n hl
      rcases h.alloc_bump (pos' := pos + 1 + n + 1) (k := k) (t := ⟨.string, (pos : Int) + 1, (pos : Int) + 1 + n, 0, s.sup⟩) (by omega)
        ⟨hlo, hhi, by simp only; omega, by simp only; omega, Or.inr ⟨by simp only; omega, by simp only; omega⟩, fun hc => absurd rfl hc⟩ (by simp only; omega) with e | ⟨s1, s2, e, e', i2, l2, u2⟩
      · refine Or.inl ⟨.nomem, ?_, by decide⟩
        show (JP.alloc s k _ >>= _) = _
        rw [e]; rfl
      · refine Or.inr ⟨⟨s2.toks, s2.sup, s.count + 1⟩, pos + 1 + n + 1, r.drop (n + 1), ?_, ⟨i2.fits, i2.sorted, i2.sup_lo, i2.sup_hi⟩, by simp; omega⟩
        show (JP.alloc s k _ >>= _) = _
        rw [e]
        show (JP.bump s1 s.sup >>= _) = _
        rw [e']; rfl
  rw [if_neg c3]
  by_cases c4 : c = 9 ∨ c = 13 ∨ c = 10 ∨ c = 32
  · rw [if_pos c4]
    exact Or.inr ⟨s, _, _, rfl, h.mono (by omega), by omega⟩
  rw [if_neg c4]
  by_cases c5 : c = 58
  · rw [if_pos c5]
    have h' := h.mono (pos' := pos + 1) (by omega)
    exact Or.inr ⟨_, _, _, rfl, ⟨h'.fits, h'.sorted, by simp only; omega, by simp only; omega⟩, by omega⟩
  rw [if_neg c5]
  by_cases c6 : c = 44
  · rw [if_pos c6]
    simp only
    have h' := h.mono (pos' := pos + 1) (by omega)
    split
    · exact Or.inr ⟨s, _, _, rfl, h', by omega⟩
    · have hlt : s.sup.toNat < s.toks.length := by omega
      have hg := List.getElem?_eq_getElem hlt
      have hf := h.fits _ _ hg
      rw [hg]
      simp only
      rw [if_neg (by omega)]
      split
      · exact Or.inr ⟨_, _, _, rfl, ⟨h'.fits, h'.sorted, hf.parent_lo, by have := hf.parent_hi; simp only; omega⟩, by omega⟩
      · exact Or.inr ⟨s, _, _, rfl, h', by omega⟩
  rw [if_neg c6]
  cases hl : primLen (c :: r) with
  | none => exact Or.inl ⟨.inval, rfl, by decide⟩
  | some n =>
    have hn := primLen_le _ n hl
    have hd : jDelim c = false := by
      unfold jDelim
      simp only [not_or] at c2 c4
      simp [c2, c4, c5, c6]
    have hp := primLen_pos h0 hd hl
    simp only [List.length_cons] at hn
    simp only
    rcases h.alloc_bump (pos' := pos + n) (k := k) (t := ⟨.primitive, pos, (pos : Int) + n, 0, s.sup⟩) (by omega)
      ⟨hlo, hhi, by simp only; omega, by simp only; omega, Or.inr ⟨by simp only; omega, by simp only; omega⟩, fun _ => Or.inr (by simp only; omega)⟩ (by simp) with e | ⟨s1, s2, e, e', i2, l2, u2⟩
    · rw [e]; exact Or.inl ⟨.nomem, rfl, by decide⟩
    · refine Or.inr ⟨⟨s2.toks, s2.sup, s.count + 1⟩, pos + n, (c :: r).drop n, ?_, ⟨i2.fits, i2.sorted, i2.sup_lo, i2.sup_hi⟩, by simp; omega⟩
      rw [e]
      show (JP.bump s1 s.sup >>= _) = _
      rw [e']; rfl

theorem JP.Inv.loop {k : Nat} : ∀ (fuel : Nat) (s : JP) (pos : Nat) (r : List UInt8), s.Inv pos →
    (∃ e, JP.loop (some k) fuel s pos r = .error e ∧ e ≠ .ub) ∨
    ∃ s', JP.loop (some k) fuel s pos r = .ok s' ∧ s'.Inv (pos + r.length) ∧ ∀ t ∈ s'.toks, t.end_ ≠ -1 := by
  intro fuel
  have fin : ∀ (s : JP) (pos : Nat) (r : List UInt8), s.Inv pos → (∃ e, s.finish (some k) = .error e ∧ e ≠ .ub) ∨ ∃ s', s.finish (some k) = .ok s' ∧ s'.Inv (pos + r.length) ∧ ∀ t ∈ s'.toks, t.end_ ≠ -1 := by
    intro s pos r h
    unfold JP.finish
    split
    · exact Or.inl ⟨.part, rfl, by decide⟩
    · next hn =>
      refine Or.inr ⟨s, rfl, h.mono (by omega), fun t ht he => hn ⟨rfl, ?_⟩⟩
      obtain ⟨i, hi⟩ := List.mem_iff_getElem?.1 ht
      have := (h.fits i t hi).start_lo
      rw [List.any_eq_true]
      exact ⟨t, ht, by simp [he]; omega⟩
  induction fuel with
  | zero => intro s pos r h; exact fin s pos r h
  | succ m ih =>
    intro s pos r h
    cases r with
    | nil => exact fin s pos [] h
    | cons c r =>
      rw [JP.loop]
      by_cases hc : c = 0
      · rw [if_pos hc]; exact fin s pos _ h
      · rw [if_neg hc]
        rcases h.step (k := k) (r := r) hc with ⟨e, he, hn⟩ | ⟨s', pos', r', he, hi, hl⟩
        · rw [he]; exact Or.inl ⟨e, rfl, hn⟩
        · rw [he]
          have := ih s' pos' r' hi
          rw [show pos + (c :: r).length = pos' + r'.length by simp; omega]
          exact this

theorem JP.Inv.init : JP.init.Inv 0 := ⟨fun i t h => by simp [JP.init] at h, by simp [JP.init], by decide, by decide⟩

end BX
