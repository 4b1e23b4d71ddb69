import Verif.Spec.Json
import Verif.Lemmas.Jsmn
/-
The tokens of a JSON text.
-/
namespace BX
open Spec

/-! ### running the tokenizer -/

/-- passes of the loop lead from one state, position and rest of the text to another -/
inductive Runs (k : Nat) : JP → Nat → List UInt8 → JP → Nat → List UInt8 → Prop where
  | refl (s : JP) (pos : Nat) (r : List UInt8) : Runs k s pos r s pos r
  | step {s s' s'' : JP} {pos pos' pos'' : Nat} {c : UInt8} {r r' r'' : List UInt8} (h0 : c ≠ 0) (h : s.step (some k) pos c r = .ok (s', pos', r')) (hr : Runs k s' pos' r' s'' pos'' r'') :
    Runs k s pos (c :: r) s'' pos'' r''

theorem Runs.trans {k : Nat} {s s' s'' : JP} {pos pos' pos'' : Nat} {r r' r'' : List UInt8} (h : Runs k s pos r s' pos' r') (h' : Runs k s' pos' r' s'' pos'' r'') : Runs k s pos r s'' pos'' r'' := by
  induction h with
  | refl => exact h'
  | step h0 h _ ih => exact .step h0 h (ih h')

theorem Runs.one {k : Nat} {s s' : JP} {pos pos' : Nat} {c : UInt8} {r r' : List UInt8} (h0 : c ≠ 0) (h : s.step (some k) pos c r = .ok (s', pos', r')) : Runs k s pos (c :: r) s' pos' r' :=
  .step h0 h (.refl ..)

theorem Runs.loop {k : Nat} {s s' : JP} {pos pos' : Nat} {r r' : List UInt8} (h : Runs k s pos r s' pos' r') : JP.loop (some k) r.length s pos r = JP.loop (some k) r'.length s' pos' r' := by
  induction h with
  | refl => rfl
  | @step s s' s'' pos pos' pos'' c r r' r'' h0 h _ ih =>
    show JP.loop (some k) (r.length + 1) s pos (c :: r) = _
    rw [JP.loop, if_neg h0, h]
    show JP.loop (some k) r.length s' pos' r' = _
    rw [JP.loop_fuel _ _ _ _ _ (JP.step_shorter h0 h), ih]

/-! ### sizes -/

/-- adding to the size of a token -/
def addSize (T : List Tok) (p : Int) (m : Nat) : List Tok := if p < 0 then T else T.modify p.toNat fun t => { t with size := t.size + m }

theorem addSize_length (T : List Tok) (p : Int) (m : Nat) : (addSize T p m).length = T.length := by
  unfold addSize; split <;> simp

theorem addSize_getElem? (T : List Tok) (p : Int) (m i : Nat) : (addSize T p m)[i]? = T[i]?.map fun t => if p = (i : Int) then { t with size := t.size + m } else t := by
  unfold addSize
  split
  · next h =>
    have : ¬ p = (i : Int) := by omega
    simp [this]
  · rw [List.getElem?_modify]
    cases T[i]? with
    | none => rfl
    | some t =>
      simp only [Option.map_some, Option.map_eq_map]
      by_cases h : p = (i : Int)
      · rw [if_pos h, if_pos (by omega)]
      · rw [if_neg h, if_neg (by omega)]

theorem addSize_append {T L : List Tok} {p : Int} {m : Nat} (h : p < T.length) : addSize (T ++ L) p m = addSize T p m ++ L := by
  apply List.ext_getElem?
  intro i
  rw [addSize_getElem?]
  by_cases hi : i < T.length
  · rw [List.getElem?_append_left hi, List.getElem?_append_left (by rw [addSize_length]; exact hi), addSize_getElem?]
  · rw [List.getElem?_append_right (by omega), List.getElem?_append_right (by rw [addSize_length]; omega), addSize_length]
    cases L[i - T.length]? with
    | none => rfl
    | some t => simp; omega

theorem addSize_add (T : List Tok) (p : Int) (m n : Nat) : addSize (addSize T p m) p n = addSize T p (m + n) := by
  apply List.ext_getElem?
  intro i
  rw [addSize_getElem?, addSize_getElem?, addSize_getElem?]
  cases T[i]? with
  | none => rfl
  | some t => simp only [Option.map_some]; split <;> simp [Nat.add_assoc]

theorem addSize_zero (T : List Tok) (p : Int) : addSize T p 0 = T := by
  apply List.ext_getElem?
  intro i
  rw [addSize_getElem?]
  cases T[i]? with
  | none => rfl
  | some t => simp

theorem addSize_last (T : List Tok) (t : Tok) (m : Nat) : addSize (T ++ [t]) (T.length : Int) m = T ++ [{ t with size := t.size + m }] := by
  apply List.ext_getElem?
  intro i
  rw [addSize_getElem?]
  by_cases h : i < T.length
  · rw [List.getElem?_append_left h, List.getElem?_append_left h]
    rw [List.getElem?_eq_getElem h]
    simp; omega
  · rw [List.getElem?_append_right (by omega), List.getElem?_append_right (by omega)]
    cases hj : i - T.length with
    | zero => simp; omega
    | succ j => simp

theorem addSize_get {T : List Tok} {p : Int} {m i : Nat} {t : Tok} (h : T[i]? = some t) : ∃ t', (addSize T p m)[i]? = some t' ∧ t'.type = t.type ∧ t'.parent = t.parent ∧ t'.start = t.start ∧ t'.end_ = t.end_ := by
  rw [addSize_getElem?, h]
  simp only [Option.map_some]
  split
  · exact ⟨_, rfl, rfl, rfl, rfl, rfl⟩
  · exact ⟨_, rfl, rfl, rfl, rfl, rfl⟩

theorem bump_eq {s : JP} {p : Int} (h1 : -1 ≤ p) (h2 : p < s.toks.length) : s.bump p = .ok { s with toks := addSize s.toks p 1 } := by
  unfold JP.bump
  split
  · next h => subst h; rfl
  · have hlt : p.toNat < s.toks.length := by omega
    rw [List.getElem?_eq_getElem hlt]
    simp only
    rw [if_neg (by omega)]
    congr 2
    apply List.ext_getElem?
    intro i
    rw [addSize_getElem?, List.getElem?_set]
    split
    · next h => subst h; simp [hlt]; omega
    · cases s.toks[i]? with
      | none => rfl
      | some t => simp; omega

/-! ### white space, strings, primitives -/

theorem run_blank {k : Nat} {s : JP} {r : List UInt8} : ∀ {w : BStr} {pos : Nat}, Blank w → Runs k s pos (w ++ r) s (pos + w.length) r
  | [], pos, _ => .refl ..
  | c :: w, pos, h => by
    have hc := h c (by simp)
    have h0 : c ≠ 0 := by rcases hc with rfl | rfl | rfl | rfl <;> decide
    have hs : s.step (some k) pos c (w ++ r) = .ok (s, pos + 1, w ++ r) := by
      unfold JP.step
      rw [if_neg (by rcases hc with rfl | rfl | rfl | rfl <;> decide), if_neg (by rcases hc with rfl | rfl | rfl | rfl <;> decide), if_neg (by rcases hc with rfl | rfl | rfl | rfl <;> decide),
        if_pos (by rcases hc with rfl | rfl | rfl | rfl <;> decide)]
    have := run_blank (k := k) (s := s) (r := r) (w := w) (pos := pos + 1) fun x hx => h x (by simp [hx])
    rw [show pos + (c :: w).length = pos + 1 + w.length by simp; omega]
    exact .step h0 hs this

theorem jHex_iff {c : UInt8} : jHex c = true ↔ JHexDigit c := by
  unfold jHex JHexDigit; simp; rw [or_assoc]

theorem hexDigit_ne0 {c : UInt8} (h : JHexDigit c) : c ≠ 0 := by
  rintro rfl
  rcases h with h | h | h <;> exact absurd h.1 (by decide)

theorem strLen_hex {c : UInt8} (h : JHexDigit c) (n : Nat) (r : List UInt8) : strLen (.hex n) (c :: r) = (strLen (hexNext n) r).map (· + 1) := by
  rw [strLen, if_neg (hexDigit_ne0 h), if_pos (jHex_iff.2 h)]

theorem strLen_text {s : BStr} (h : StrText s) (r : List UInt8) : strLen .plain (s ++ 34 :: r) = .ok s.length := by
  induction h with
  | nil => show strLen .plain (34 :: r) = _; rw [strLen, if_neg (by decide), if_pos rfl]; rfl
  | plain c s h0 hq hb _ ih =>
    show strLen .plain (c :: (s ++ 34 :: r)) = _
    rw [strLen, if_neg h0, if_neg hq, if_neg hb, ih]; rfl
  | esc c s hc _ ih =>
    show strLen .plain (92 :: c :: (s ++ 34 :: r)) = _
    rw [strLen, if_neg (by decide), if_neg (by decide), if_pos rfl, strLen, if_pos, ih]
    · rfl
    · simp only [List.mem_cons, List.not_mem_nil, or_false] at hc ⊢
      rcases hc with rfl | rfl | rfl | rfl | rfl | rfl | rfl | rfl <;> decide
  | uni a b c d s ha hb hc hd _ ih =>
    show strLen .plain (92 :: 117 :: a :: b :: c :: d :: (s ++ 34 :: r)) = _
    rw [strLen, if_neg (by decide), if_neg (by decide), if_pos rfl, strLen, if_neg (by decide), if_pos rfl, strLen_hex ha, hexNext, strLen_hex hb, hexNext, strLen_hex hc, hexNext, strLen_hex hd, hexNext, ih]
    rfl

/-- what may follow a value: nothing, or a character that ends a primitive -/
def Follows (r : List UInt8) : Prop := ∀ c, r.head? = some c → c = 0 ∨ jDelim c = true

theorem follows_blank {w r : BStr} (h : Blank w) (hr : Follows r) : Follows (w ++ r) := by
  cases w with
  | nil => exact hr
  | cons c w =>
    intro x hx
    simp at hx; subst hx
    right
    rcases h c (by simp) with rfl | rfl | rfl | rfl <;> decide

theorem primLen_text {r : List UInt8} (hr : Follows r) : ∀ {s : BStr}, (∀ c ∈ s, 32 < c ∧ c < 127 ∧ c ≠ 44 ∧ c ≠ 58 ∧ c ≠ 93 ∧ c ≠ 125) → primLen (s ++ r) = some s.length
  | [], _ => by
    cases r with
    | nil => rfl
    | cons c r =>
      show primLen (c :: r) = some 0
      rw [primLen]
      split
      · rfl
      · next h0 => rw [if_pos ((hr c rfl).resolve_left h0)]
  | c :: s, h => by
    obtain ⟨h1, h2, h3, h4, h5, h6⟩ := h c (by simp)
    have ih := primLen_text hr (s := s) fun x hx => h x (by simp [hx])
    show primLen (c :: (s ++ r)) = _
    have n1 : (32 : UInt8).toNat < c.toNat := h1
    have n2 : c.toNat < (127 : UInt8).toNat := h2
    have hlt : ∀ d : UInt8, d.toNat ≤ 32 → c ≠ d := fun d hd he => by subst he; have : (32 : UInt8).toNat = 32 := rfl; omega
    rw [primLen, if_neg (hlt 0 (by decide)), if_neg, if_neg, ih]
    · rfl
    · simp only [Bool.or_eq_true, decide_eq_true_eq]
      rintro (h | h)
      · have : c.toNat < (32 : UInt8).toNat := h
        omega
      · have : (127 : UInt8).toNat ≤ c.toNat := h
        omega
    · unfold jDelim
      simp [h3, h4, h5, h6, hlt 9 (by decide), hlt 13 (by decide), hlt 10 (by decide), hlt 32 (by decide)]

/-! ### the tokens of a value -/

mutual
/-- the tokens of a value whose text starts at `off`, inside token `par`, from index `base` on -/
def JVtoks : JV → Nat → Int → Nat → List Tok
  | .str s, off, par, _ => [⟨.string, (off : Int) + 1, (off : Int) + 1 + s.length, 0, par⟩]
  | .prim s, off, par, _ => [⟨.primitive, off, (off : Int) + s.length, 0, par⟩]
  | .arr pad es, off, par, base => ⟨.array, off, (off + 1 + pad.length + es.text.length : Nat) + 1, es.length, par⟩ :: JEtoks es (off + 1 + pad.length) base (base + 1)
  | .obj pad ms, off, par, base => ⟨.object, off, (off + 1 + pad.length + ms.text.length : Nat) + 1, ms.length, par⟩ :: JMtoks ms (off + 1 + pad.length) base (base + 1)
def JEtoks : JEs → Nat → Nat → Nat → List Tok
  | .nil, _, _, _ => []
  | .cons w v w' rest, off, par, base =>
    JVtoks v (off + w.length) par base ++ JEtoks rest (off + w.length + v.text.length + w'.length + (comma rest.isNil).length) par (base + v.count)
def JMtoks : JMs → Nat → Nat → Nat → List Tok
  | .nil, _, _, _ => []
  | .cons w k w1 w2 v w3 rest, off, par, base =>
    ⟨.string, ((off + w.length : Nat) : Int) + 1, ((off + w.length : Nat) : Int) + 1 + k.length, 1, par⟩ ::
      (JVtoks v (off + w.length + 1 + k.length + 1 + w1.length + 1 + w2.length) base (base + 1) ++
       JMtoks rest (off + w.length + 1 + k.length + 1 + w1.length + 1 + w2.length + v.text.length + w3.length + (comma rest.isNil).length) par (base + 1 + v.count))
end

mutual
theorem JVtoks_length : ∀ (v : JV) (off : Nat) (par : Int) (base : Nat), (JVtoks v off par base).length = v.count
  | .str s, _, _, _ => by simp [JVtoks, JV.count]
  | .prim s, _, _, _ => by simp [JVtoks, JV.count]
  | .arr pad es, off, par, base => by simp [JVtoks, JV.count, JEtoks_length es]; omega
  | .obj pad ms, off, par, base => by simp [JVtoks, JV.count, JMtoks_length ms]; omega
theorem JEtoks_length : ∀ (es : JEs) (off par base : Nat), (JEtoks es off par base).length = es.count
  | .nil, _, _, _ => by simp [JEtoks, JEs.count]
  | .cons w v w' rest, off, par, base => by simp [JEtoks, JEs.count, JVtoks_length v, JEtoks_length rest]
theorem JMtoks_length : ∀ (ms : JMs) (off par base : Nat), (JMtoks ms off par base).length = ms.count
  | .nil, _, _, _ => by simp [JMtoks, JMs.count]
  | .cons w k w1 w2 v w3 rest, off, par, base => by simp [JMtoks, JMs.count, JVtoks_length v, JMtoks_length rest]; omega
end

/-- tokens from index `base` on that are complete and whose parents are earlier, but not before `lo` -/
def ClosedToks (lo : Int) (base : Nat) (L : List Tok) : Prop := ∀ (i : Nat) (t : Tok), L[i]? = some t → t.start ≠ -1 ∧ t.end_ ≠ -1 ∧ lo ≤ t.parent ∧ t.parent < ((base + i : Nat) : Int)

theorem ClosedToks.nil (lo : Int) (base : Nat) : ClosedToks lo base [] := fun i t h => by simp at h

theorem ClosedToks.append {lo : Int} {base : Nat} {A B : List Tok} (ha : ClosedToks lo base A) (hb : ClosedToks lo (base + A.length) B) : ClosedToks lo base (A ++ B) := by
  intro i t h
  by_cases hi : i < A.length
  · rw [List.getElem?_append_left hi] at h; exact ha i t h
  · rw [List.getElem?_append_right (by omega)] at h
    have := hb _ t h
    rw [show base + A.length + (i - A.length) = base + i by omega] at this
    exact this

theorem ClosedToks.one {lo : Int} {base : Nat} {t : Tok} (h1 : t.start ≠ -1) (h2 : t.end_ ≠ -1) (h3 : lo ≤ t.parent) (h4 : t.parent < base) : ClosedToks lo base [t] := by
  intro i u h
  cases i with
  | zero => cases h; exact ⟨h1, h2, h3, by simpa using h4⟩
  | succ i => simp at h

theorem ClosedToks.cons {lo : Int} {base : Nat} {t : Tok} {L : List Tok} (h1 : t.start ≠ -1) (h2 : t.end_ ≠ -1) (h3 : lo ≤ t.parent) (h4 : t.parent < base) (h : ClosedToks lo (base + 1) L) :
    ClosedToks lo base (t :: L) := ClosedToks.append (A := [t]) (.one h1 h2 h3 h4) (by simpa using h)

theorem ClosedToks.weaken {lo lo' : Int} {base : Nat} {L : List Tok} (h : ClosedToks lo base L) (hl : lo' ≤ lo) : ClosedToks lo' base L := by
  intro i t ht
  obtain ⟨a, b, c, d⟩ := h i t ht
  exact ⟨a, b, by omega, d⟩

mutual
theorem JVtoks_closed : ∀ (v : JV) (off : Nat) (par : Int) (base : Nat), par < base → ClosedToks par base (JVtoks v off par base)
  | .str s, off, par, base, h => by rw [JVtoks]; exact .one (by simp only; omega) (by simp only; omega) (by simp) h
  | .prim s, off, par, base, h => by rw [JVtoks]; exact .one (by simp only; omega) (by simp only; omega) (by simp) h
  | .arr pad es, off, par, base, h => by
    rw [JVtoks]
    exact .cons (by simp only; omega) (by simp only; omega) (by simp) h ((JEtoks_closed es _ base (base + 1) (by omega)).weaken (by omega))
  | .obj pad ms, off, par, base, h => by
    rw [JVtoks]
    exact .cons (by simp only; omega) (by simp only; omega) (by simp) h ((JMtoks_closed ms _ base (base + 1) (by omega)).weaken (by omega))
theorem JEtoks_closed : ∀ (es : JEs) (off par base : Nat), par < base → ClosedToks par base (JEtoks es off par base)
  | .nil, _, _, _, _ => by rw [JEtoks]; exact .nil _ _
  | .cons w v w' rest, off, par, base, h => by
    rw [JEtoks]
    refine .append (JVtoks_closed v _ par base (by omega)) ?_
    rw [JVtoks_length]
    exact JEtoks_closed rest _ par _ (by omega)
theorem JMtoks_closed : ∀ (ms : JMs) (off par base : Nat), par < base → ClosedToks par base (JMtoks ms off par base)
  | .nil, _, _, _, _ => by rw [JMtoks]; exact .nil _ _
  | .cons w k w1 w2 v w3 rest, off, par, base, h => by
    rw [JMtoks]
    refine .cons (by simp only; omega) (by simp only; omega) (by simp) (by simp only; omega) (.append ((JVtoks_closed v _ base (base + 1) (by omega)).weaken (by omega)) ?_)
    rw [JVtoks_length]
    exact JMtoks_closed rest _ par _ (by omega)
end

/-- a closing bracket closes the innermost open container -/
theorem close_eq {A L : List Tok} {c : Tok} {sup : Int} {n pos : Nat} (h1 : c.start ≠ -1) (h2 : c.end_ = -1) (hL : ClosedToks A.length (A.length + 1) L) : ∀ (fuel i : Nat), A.length ≤ i →
    i < A.length + 1 + L.length → i < fuel →
    JP.close ⟨A ++ c :: L, sup, n⟩ c.type pos fuel i = .ok ⟨A ++ { c with end_ := pos + 1 } :: L, c.parent, n⟩ := by
  intro fuel
  induction fuel with
  | zero => intro i _ _ h; omega
  | succ m ih =>
    intro i hi hl hf
    rw [JP.close, if_neg (by omega)]
    simp only [Int.toNat_natCast]
    by_cases he : i = A.length
    · subst he
      rw [List.getElem?_append_right (Nat.le_refl _)]
      simp only [Nat.sub_self, List.getElem?_cons_zero]
      rw [if_pos ⟨h1, h2⟩, if_neg (by simp)]
      congr 2
      rw [show (A ++ c :: L).set A.length _ = _ from List.set_append_right _ _ (Nat.le_refl _)]
      simp
    · rw [List.getElem?_append_right (by omega)]
      obtain ⟨j, hj⟩ : ∃ j, i - A.length = j + 1 := ⟨i - A.length - 1, by omega⟩
      rw [hj, List.getElem?_cons_succ]
      have hlt : j < L.length := by omega
      have hg := List.getElem?_eq_getElem hlt
      obtain ⟨q1, q2, q3, q4⟩ := hL j _ hg
      rw [hg]
      simp only
      rw [if_neg (fun h => q2 h.2), if_neg (by omega)]
      obtain ⟨i', hi'⟩ : ∃ i' : Nat, L[j].parent = i' := ⟨L[j].parent.toNat, by omega⟩
      rw [hi']
      exact ih i' (by omega) (by omega) (by omega)

/-- a string token -/
theorem run_string {k : Nat} {T : List Tok} {p : Int} {n pos : Nat} {s : BStr} {r : List UInt8} (hs : StrText s) (hp : -1 ≤ p) (hp' : p < T.length) (hk : T.length + 1 ≤ k) :
    Runs k ⟨T, p, n⟩ pos (34 :: s ++ 34 :: r) ⟨addSize T p 1 ++ [⟨.string, (pos : Int) + 1, (pos : Int) + 1 + s.length, 0, p⟩], p, n + 1⟩ (pos + 1 + s.length + 1) r := by
  refine .one (by decide) ?_
  unfold JP.step
  rw [if_neg (by decide), if_neg (by decide), if_pos rfl]
  show (strLen .plain (s ++ 34 :: r) >>= _) = _
  rw [strLen_text hs]
  show (JP.alloc _ k _ >>= _) = _
  rw [JP.alloc, if_neg (by simp only; omega)]
  show (JP.bump _ p >>= _) = _
  rw [bump_eq hp (by simp; omega)]
  simp only [addSize_append hp']
  show Except.ok _ = _
  congr 3
  show List.drop (s.length + 1) (s ++ 34 :: r) = r
  rw [List.drop_append]
  simp

/-- a primitive token -/
theorem run_prim {k : Nat} {T : List Tok} {p : Int} {n pos : Nat} {s : BStr} {r : List UInt8} (hs : PrimText s) (hr : Follows r) (hp : -1 ≤ p) (hp' : p < T.length) (hk : T.length + 1 ≤ k) :
    Runs k ⟨T, p, n⟩ pos (s ++ r) ⟨addSize T p 1 ++ [⟨.primitive, pos, (pos : Int) + s.length, 0, p⟩], p, n + 1⟩ (pos + s.length) r := by
  obtain ⟨h1, h2, h3⟩ := hs
  have hl := primLen_text hr h2
  cases s with
  | nil => exact absurd rfl h1
  | cons c s =>
    obtain ⟨g1, g2, g3, g4, g5, g6⟩ := h2 c (by simp)
    obtain ⟨e1, e2, e3⟩ := h3 c rfl
    have n1 : (32 : UInt8).toNat < c.toNat := g1
    have hlt : ∀ d : UInt8, d.toNat ≤ 32 → c ≠ d := fun d hd he => by subst he; have : (32 : UInt8).toNat = 32 := rfl; omega
    show Runs k _ pos (c :: (s ++ r)) _ _ _
    refine .one (hlt 0 (by decide)) ?_
    unfold JP.step
    rw [if_neg (by simp [e2, e3]), if_neg (by simp [g5, g6]), if_neg e1, if_neg (by simp [hlt 9 (by decide), hlt 13 (by decide), hlt 10 (by decide), hlt 32 (by decide)]), if_neg g4, if_neg g3]
    rw [← List.cons_append, hl]
    simp only
    rw [JP.alloc, if_neg (by simp only; omega)]
    show (JP.bump _ p >>= _) = _
    rw [bump_eq hp (by simp; omega)]
    simp only [addSize_append hp']
    show Except.ok _ = _
    congr 3
    simp

/-- an opening bracket -/
theorem run_open {k : Nat} {T : List Tok} {p : Int} {n pos : Nat} {c : UInt8} {r : List UInt8} (hc : c = 123 ∨ c = 91) (hp : -1 ≤ p) (hp' : p < T.length) (hk : T.length + 1 ≤ k) :
    Runs k ⟨T, p, n⟩ pos (c :: r) ⟨addSize T p 1 ++ [⟨if c = 123 then .object else .array, pos, -1, 0, p⟩], T.length, n + 1⟩ (pos + 1) r := by
  refine .one (by rcases hc with rfl | rfl <;> decide) ?_
  unfold JP.step
  rw [if_pos hc]
  simp only
  rw [JP.alloc, if_neg (by simp only; omega)]
  show (JP.bump _ p >>= _) = _
  rw [bump_eq hp (by simp; omega)]
  simp only [addSize_append hp']
  show Except.ok _ = _
  congr 3
  simp [addSize_length]

/-- a closing bracket -/
theorem run_close {k : Nat} {A L : List Tok} {t : Tok} {sup : Int} {n pos : Nat} {c : UInt8} {r : List UInt8} (hc : c = 125 ∧ t.type = .object ∨ c = 93 ∧ t.type = .array) (h1 : t.start ≠ -1) (h2 : t.end_ = -1)
    (hL : ClosedToks A.length (A.length + 1) L) : Runs k ⟨A ++ t :: L, sup, n⟩ pos (c :: r) ⟨A ++ { t with end_ := pos + 1 } :: L, t.parent, n⟩ (pos + 1) r := by
  refine .one (by rcases hc with ⟨rfl, -⟩ | ⟨rfl, -⟩ <;> decide) ?_
  unfold JP.step
  rw [if_neg (by rcases hc with ⟨rfl, -⟩ | ⟨rfl, -⟩ <;> decide), if_pos (by rcases hc with ⟨rfl, -⟩ | ⟨rfl, -⟩ <;> decide)]
  simp only
  rw [if_neg (by simp), show (if c = 125 then JT.object else JT.array) = t.type by rcases hc with ⟨rfl, h⟩ | ⟨rfl, h⟩ <;> rw [h] <;> rfl]
  rw [show (((A ++ t :: L).length : Int) - 1) = ((A.length + L.length : Nat) : Int) by simp; omega]
  rw [close_eq h1 h2 hL _ _ (by omega) (by omega) (by simp)]
  rfl

/-- a comma after an element of an array -/
theorem run_comma_array {k : Nat} {T : List Tok} {b n pos : Nat} {r : List UInt8} {t : Tok} (h : T[b]? = some t) (ht : t.type = .array) (q : Bool) :
    Runs k ⟨T, b, n⟩ pos (comma q ++ r) ⟨T, b, n⟩ (pos + (comma q).length) r := by
  cases q with
  | true => exact .refl ..
  | false =>
    refine .one (c := 44) (by decide) ?_
    unfold JP.step
    rw [if_neg (by decide), if_neg (by decide), if_neg (by decide), if_neg (by decide), if_neg (by decide), if_pos rfl]
    simp only [Int.toNat_natCast, h]
    rw [if_neg (by omega), if_neg (by omega), if_neg (by rw [ht]; simp)]
    rfl

/-- a comma after a member of an object -/
theorem run_comma_key {k : Nat} {T : List Tok} {b n pos : Nat} {r : List UInt8} {t : Tok} {q : Int} (h : T[b]? = some t) (ht : t.type = .string) (hp : t.parent = q) :
    Runs k ⟨T, b, n⟩ pos (44 :: r) ⟨T, q, n⟩ (pos + 1) r := by
  refine .one (c := 44) (by decide) ?_
  unfold JP.step
  rw [if_neg (by decide), if_neg (by decide), if_neg (by decide), if_neg (by decide), if_neg (by decide), if_pos rfl]
  simp only [Int.toNat_natCast, h]
  rw [if_neg (by omega), if_neg (by omega), if_pos (by rw [ht]; simp), hp]

theorem run_colon {k : Nat} {s : JP} {pos : Nat} {r : List UInt8} : Runs k s pos (58 :: r) { s with sup := (s.toks.length : Int) - 1 } (pos + 1) r := by
  refine .one (by decide) ?_
  unfold JP.step
  rw [if_neg (by decide), if_neg (by decide), if_neg (by decide), if_neg (by decide), if_pos rfl]

mutual
/-- tokenizing a value -/
theorem JV.run {k : Nat} : ∀ (v : JV) (T : List Tok) (p : Int) (n pos : Nat) (r : List UInt8), v.Ok → -1 ≤ p → p < T.length → T.length + v.count ≤ k → Follows r →
    Runs k ⟨T, p, n⟩ pos (v.text ++ r) ⟨addSize T p 1 ++ JVtoks v pos p T.length, p, n + v.count⟩ (pos + v.text.length) r
  | .str s, T, p, n, pos, r, h, hp, hp', hk, _ => by
    unfold JV.Ok at h
    have := run_string (k := k) (n := n) (pos := pos) (r := r) h hp hp' hk
    simp only [JV.text, JVtoks, JV.count]
    rw [show 34 :: s ++ [34] ++ r = 34 :: s ++ 34 :: r by simp, show pos + (34 :: s ++ [34] : List UInt8).length = pos + 1 + s.length + 1 by simp; omega]
    exact this
  | .prim s, T, p, n, pos, r, h, hp, hp', hk, hr => by
    unfold JV.Ok at h
    simp only [JV.text, JVtoks, JV.count]
    exact run_prim h hr hp hp' hk
  | .arr pad es, T, p, n, pos, r, h, hp, hp', hk, _ => by
    unfold JV.Ok at h
    obtain ⟨h1, h2⟩ := h
    simp only [JV.count] at hk
    have a := run_open (k := k) (T := T) (n := n) (pos := pos) (c := 91) (r := pad ++ es.text ++ 93 :: r) (Or.inr rfl) hp hp' (by omega)
    have b := run_blank (k := k) (s := ⟨addSize T p 1 ++ [⟨.array, pos, -1, 0, p⟩], T.length, n + 1⟩) (r := es.text ++ 93 :: r) (pos := pos + 1) h1
    have c := JEs.run (k := k) es (addSize T p 1 ++ [⟨.array, pos, -1, 0, p⟩]) T.length (n + 1) (pos + 1 + pad.length) (93 :: r) ⟨.array, pos, -1, 0, p⟩ h2
      (by rw [List.getElem?_append_right (by rw [addSize_length]; omega)]; simp [addSize_length]) rfl (by simp [addSize_length]; omega) (fun x hx => by simp at hx; subst hx; right; decide)
    have hAl : (addSize T p 1).length = T.length := addSize_length ..
    have hL := addSize_last (addSize T p 1) ⟨.array, pos, -1, 0, p⟩ es.length
    rw [hAl] at hL
    rw [hL] at c
    simp only [List.length_append, hAl, List.length_cons, List.length_nil, Nat.zero_add, List.append_assoc, List.cons_append, List.nil_append] at c
    have d := run_close (k := k) (A := addSize T p 1) (L := JEtoks es (pos + 1 + pad.length) T.length (T.length + 1)) (t := ⟨.array, pos, -1, es.length, p⟩) (sup := T.length) (n := n + 1 + es.count)
      (pos := pos + 1 + pad.length + es.text.length) (c := 93) (r := r) (Or.inr ⟨rfl, rfl⟩) (by simp only; omega) rfl (by rw [hAl]; exact JEtoks_closed es _ T.length (T.length + 1) (by omega))
    simp only [JV.text, JVtoks, JV.count]
    have e := ((a.trans (by simpa using b)).trans c).trans d
    rw [show 91 :: pad ++ es.text ++ [93] ++ r = 91 :: (pad ++ es.text ++ 93 :: r) by simp, show pos + (91 :: pad ++ es.text ++ [93] : List UInt8).length = pos + 1 + pad.length + es.text.length + 1 by simp; omega,
      show n + (1 + es.count) = n + 1 + es.count by omega]
    exact e
  | .obj pad ms, T, p, n, pos, r, h, hp, hp', hk, _ => by
    unfold JV.Ok at h
    obtain ⟨h1, h2⟩ := h
    simp only [JV.count] at hk
    have a := run_open (k := k) (T := T) (n := n) (pos := pos) (c := 123) (r := pad ++ ms.text ++ 125 :: r) (Or.inl rfl) hp hp' (by omega)
    have b := run_blank (k := k) (s := ⟨addSize T p 1 ++ [⟨.object, pos, -1, 0, p⟩], T.length, n + 1⟩) (r := ms.text ++ 125 :: r) (pos := pos + 1) h1
    obtain ⟨q, c⟩ := JMs.run (k := k) ms (addSize T p 1 ++ [⟨.object, pos, -1, 0, p⟩]) T.length (n + 1) (pos + 1 + pad.length) (125 :: r) ⟨.object, pos, -1, 0, p⟩ h2
      (by rw [List.getElem?_append_right (by rw [addSize_length]; omega)]; simp [addSize_length]) rfl (by simp [addSize_length]; omega) (fun x hx => by simp at hx; subst hx; right; decide)
    have hAl : (addSize T p 1).length = T.length := addSize_length ..
    have hL := addSize_last (addSize T p 1) ⟨.object, pos, -1, 0, p⟩ ms.length
    rw [hAl] at hL
    rw [hL] at c
    simp only [List.length_append, hAl, List.length_cons, List.length_nil, Nat.zero_add, List.append_assoc, List.cons_append, List.nil_append] at c
    have d := run_close (k := k) (A := addSize T p 1) (L := JMtoks ms (pos + 1 + pad.length) T.length (T.length + 1)) (t := ⟨.object, pos, -1, ms.length, p⟩) (sup := q) (n := n + 1 + ms.count)
      (pos := pos + 1 + pad.length + ms.text.length) (c := 125) (r := r) (Or.inl ⟨rfl, rfl⟩) (by simp only; omega) rfl (by rw [hAl]; exact JMtoks_closed ms _ T.length (T.length + 1) (by omega))
    simp only [JV.text, JVtoks, JV.count]
    have e := ((a.trans (by simpa using b)).trans c).trans d
    rw [show 123 :: pad ++ ms.text ++ [125] ++ r = 123 :: (pad ++ ms.text ++ 125 :: r) by simp, show pos + (123 :: pad ++ ms.text ++ [125] : List UInt8).length = pos + 1 + pad.length + ms.text.length + 1 by simp; omega,
      show n + (1 + ms.count) = n + 1 + ms.count by omega]
    exact e
/-- tokenizing the elements of the array with index `b` -/
theorem JEs.run {k : Nat} : ∀ (es : JEs) (T : List Tok) (b n pos : Nat) (r : List UInt8) (t : Tok), es.Ok → T[b]? = some t → t.type = .array → T.length + es.count ≤ k → Follows r →
    Runs k ⟨T, b, n⟩ pos (es.text ++ r) ⟨addSize T b es.length ++ JEtoks es pos b T.length, b, n + es.count⟩ (pos + es.text.length) r
  | .nil, T, b, n, pos, r, t, _, _, _, _, _ => by
    simp only [JEs.text, JEtoks, JEs.count, JEs.length, addSize_zero, List.append_nil, List.nil_append, List.length_nil, Nat.add_zero]
    exact .refl ..
  | .cons w v w' rest, T, b, n, pos, r, t, h, ht, hty, hk, hr => by
    unfold JEs.Ok at h
    obtain ⟨h1, h2, h3, h4⟩ := h
    have hb : b < T.length := (List.getElem?_eq_some_iff.1 ht).1
    simp only [JEs.count] at hk
    have hq : Follows (comma rest.isNil ++ rest.text ++ r) := by
      cases rest with
      | nil => simpa [comma, JEs.isNil, JEs.text] using hr
      | cons => intro x hx; simp [comma, JEs.isNil] at hx; subst hx; right; decide
    have a := run_blank (k := k) (s := ⟨T, b, n⟩) (r := v.text ++ (w' ++ (comma rest.isNil ++ rest.text ++ r))) (pos := pos) h1
    have c := JV.run (k := k) v T b n (pos + w.length) (w' ++ (comma rest.isNil ++ rest.text ++ r)) h2 (by omega) (by omega) (by omega) (follows_blank h3 hq)
    have d := run_blank (k := k) (s := ⟨addSize T b 1 ++ JVtoks v (pos + w.length) b T.length, b, n + v.count⟩) (r := comma rest.isNil ++ rest.text ++ r) (pos := pos + w.length + v.text.length) h3
    obtain ⟨t', ht', hty', -⟩ := addSize_get (p := b) (m := 1) ht
    have ht2 : (addSize T b 1 ++ JVtoks v (pos + w.length) b T.length)[b]? = some t' := by rw [List.getElem?_append_left (by rw [addSize_length]; exact hb)]; exact ht'
    have e := run_comma_array (k := k) (n := n + v.count) (pos := pos + w.length + v.text.length + w'.length) (r := rest.text ++ r) ht2 (by rw [hty']; exact hty) rest.isNil
    have f := JEs.run (k := k) rest (addSize T b 1 ++ JVtoks v (pos + w.length) b T.length) b (n + v.count) (pos + w.length + v.text.length + w'.length + (comma rest.isNil).length) r t' h4 ht2
      (by rw [hty']; exact hty) (by simp only [List.length_append, addSize_length, JVtoks_length]; omega) hr
    rw [addSize_append (by rw [addSize_length]; omega), addSize_add] at f
    simp only [List.length_append, addSize_length, JVtoks_length, List.append_assoc] at a c d e f
    have g := (((a.trans c).trans d).trans e).trans f
    simp only [JEs.text, JEtoks, JEs.count, JEs.length, List.append_assoc, List.length_append]
    rw [show rest.length + 1 = 1 + rest.length by omega, show n + (v.count + rest.count) = n + v.count + rest.count by omega,
      show pos + (w.length + (v.text.length + (w'.length + ((comma rest.isNil).length + rest.text.length)))) = pos + w.length + v.text.length + w'.length + (comma rest.isNil).length + rest.text.length by omega]
    exact g
/-- tokenizing the members of the object with index `b` -/
theorem JMs.run {k : Nat} : ∀ (ms : JMs) (T : List Tok) (b n pos : Nat) (r : List UInt8) (t : Tok), ms.Ok → T[b]? = some t → t.type = .object → T.length + ms.count ≤ k → Follows r →
    ∃ q, Runs k ⟨T, b, n⟩ pos (ms.text ++ r) ⟨addSize T b ms.length ++ JMtoks ms pos b T.length, q, n + ms.count⟩ (pos + ms.text.length) r
  | .nil, T, b, n, pos, r, t, _, _, _, _, _ => by
    simp only [JMs.text, JMtoks, JMs.count, JMs.length, addSize_zero, List.append_nil, List.nil_append, List.length_nil, Nat.add_zero]
    exact ⟨_, .refl ..⟩
  | .cons w key w1 w2 v w3 rest, T, b, n, pos, r, t, h, ht, hty, hk, hr => by
    unfold JMs.Ok at h
    obtain ⟨h1, h2, h3, h4, h5, h6, h7⟩ := h
    have hb : b < T.length := (List.getElem?_eq_some_iff.1 ht).1
    simp only [JMs.count] at hk
    have hq : Follows (comma rest.isNil ++ rest.text ++ r) := by
      cases rest with
      | nil => simpa [comma, JMs.isNil, JMs.text] using hr
      | cons => intro x hx; simp [comma, JMs.isNil] at hx; subst hx; right; decide
    generalize hT1 : addSize T b 1 = T1
    have hl1 : T1.length = T.length := by rw [← hT1, addSize_length]
    have a := run_blank (k := k) (s := ⟨T, b, n⟩) (r := 34 :: key ++ 34 :: (w1 ++ (58 :: (w2 ++ (v.text ++ (w3 ++ (comma rest.isNil ++ rest.text ++ r))))))) (pos := pos) h1
    have c := run_string (k := k) (T := T) (p := b) (n := n) (pos := pos + w.length) (r := w1 ++ (58 :: (w2 ++ (v.text ++ (w3 ++ (comma rest.isNil ++ rest.text ++ r)))))) h2 (by omega) (by omega) (by omega)
    rw [hT1] at c
    generalize hkt : (⟨.string, ((pos + w.length : Nat) : Int) + 1, ((pos + w.length : Nat) : Int) + 1 + key.length, 0, (b : Int)⟩ : Tok) = kt at c
    have d := run_blank (k := k) (s := ⟨T1 ++ [kt], b, n + 1⟩) (r := 58 :: (w2 ++ (v.text ++ (w3 ++ (comma rest.isNil ++ rest.text ++ r))))) (pos := pos + w.length + 1 + key.length + 1) h3
    have e := run_colon (k := k) (s := ⟨T1 ++ [kt], b, n + 1⟩) (r := w2 ++ (v.text ++ (w3 ++ (comma rest.isNil ++ rest.text ++ r)))) (pos := pos + w.length + 1 + key.length + 1 + w1.length)
    rw [show (((⟨T1 ++ [kt], b, n + 1⟩ : JP).toks.length : Int) - 1) = (T.length : Int) by simp [hl1]] at e
    have f := run_blank (k := k) (s := ⟨T1 ++ [kt], T.length, n + 1⟩) (r := v.text ++ (w3 ++ (comma rest.isNil ++ rest.text ++ r))) (pos := pos + w.length + 1 + key.length + 1 + w1.length + 1) h4
    have g := JV.run (k := k) v (T1 ++ [kt]) T1.length (n + 1) (pos + w.length + 1 + key.length + 1 + w1.length + 1 + w2.length) (w3 ++ (comma rest.isNil ++ rest.text ++ r)) h5 (by omega) (by simp; omega)
      (by simp; omega) (follows_blank h6 hq)
    rw [addSize_last] at g
    simp only [List.length_append, List.length_cons, List.length_nil, Nat.zero_add, hl1] at g
    generalize hvt : JVtoks v (pos + w.length + 1 + key.length + 1 + w1.length + 1 + w2.length) T.length (T.length + 1) = V at g
    have hvl : V.length = v.count := by rw [← hvt, JVtoks_length]
    have i := run_blank (k := k) (s := ⟨T1 ++ [{ kt with size := kt.size + 1 }] ++ V, T.length, n + 1 + v.count⟩) (r := comma rest.isNil ++ rest.text ++ r)
      (pos := pos + w.length + 1 + key.length + 1 + w1.length + 1 + w2.length + v.text.length) h6
    have hk2 : (T1 ++ [{ kt with size := kt.size + 1 }] ++ V)[T.length]? = some { kt with size := kt.size + 1 } := by
      rw [List.getElem?_append_left (by simp; omega), List.getElem?_append_right (by omega), hl1]; simp
    have z := (((((a.trans c).trans d).trans e).trans f).trans g).trans i
    have hres : ∃ q, Runs k ⟨T1 ++ [{ kt with size := kt.size + 1 }] ++ V, T.length, n + 1 + v.count⟩ (pos + w.length + 1 + key.length + 1 + w1.length + 1 + w2.length + v.text.length + w3.length)
        (comma rest.isNil ++ rest.text ++ r)
        ⟨addSize T1 b rest.length ++ ([{ kt with size := kt.size + 1 }] ++ (V ++ JMtoks rest (pos + w.length + 1 + key.length + 1 + w1.length + 1 + w2.length + v.text.length + w3.length + (comma rest.isNil).length) b (T.length + 1 + v.count))), q, n + 1 + v.count + rest.count⟩
        (pos + w.length + 1 + key.length + 1 + w1.length + 1 + w2.length + v.text.length + w3.length + (comma rest.isNil).length + rest.text.length) r := by
      cases rest with
      | nil =>
        simp only [comma, JMs.isNil, JMs.text, JMtoks, JMs.count, JMs.length, addSize_zero, List.append_nil, List.nil_append, List.length_nil, Nat.add_zero, List.append_assoc]
        exact ⟨_, .refl ..⟩
      | cons w' key' w1' w2' v' w3' rest' =>
        have j := run_comma_key (k := k) (n := n + 1 + v.count) (pos := pos + w.length + 1 + key.length + 1 + w1.length + 1 + w2.length + v.text.length + w3.length)
          (r := (JMs.cons w' key' w1' w2' v' w3' rest').text ++ r) hk2 (by rw [← hkt]) (q := b) (by rw [← hkt])
        obtain ⟨t', ht', hty', -⟩ := addSize_get (p := b) (m := 1) ht
        rw [hT1] at ht'
        have ht2 : (T1 ++ [{ kt with size := kt.size + 1 }] ++ V)[b]? = some t' := by rw [List.getElem?_append_left (by simp; omega), List.getElem?_append_left (by omega)]; exact ht'
        obtain ⟨q, l⟩ := JMs.run (k := k) (JMs.cons w' key' w1' w2' v' w3' rest') (T1 ++ [{ kt with size := kt.size + 1 }] ++ V) b (n + 1 + v.count)
          (pos + w.length + 1 + key.length + 1 + w1.length + 1 + w2.length + v.text.length + w3.length + 1) r t' h7 ht2 (by rw [hty']; exact hty)
          (by simp only [List.length_append, List.length_cons, List.length_nil]; omega) hr
        rw [List.append_assoc, addSize_append (T := T1) (by omega)] at l
        simp only [List.length_append, List.length_cons, List.length_nil, hl1, hvl, Nat.zero_add] at l
        refine ⟨q, ?_⟩
        have := j.trans (by rw [List.append_assoc]; exact l)
        simp only [comma, JMs.isNil, List.length_cons, List.length_nil, Nat.zero_add, List.cons_append, List.nil_append, List.append_assoc] at this ⊢
        rw [← Nat.add_assoc] at this
        exact this
    obtain ⟨q, y⟩ := hres
    refine ⟨q, ?_⟩
    have x := z.trans y
    rw [← hT1, addSize_add, ← hvt, ← hkt] at x
    simp only [JMs.text, JMtoks, JMs.count, JMs.length, List.append_assoc, List.length_append, List.cons_append, List.nil_append, List.length_cons, List.length_nil] at x ⊢
    rw [show rest.length + 1 = 1 + rest.length by omega, show n + (1 + v.count + rest.count) = n + 1 + v.count + rest.count by omega]
    refine cast ?_ x
    congr 1
    omega
end

end BX
