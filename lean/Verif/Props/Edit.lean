import Verif.Lemmas.Edit
/-
C61: making elements with a value.
-/
namespace BX
open XBT Spec

/-- C61 (partial): after any history of a writable document whose symbols have been registered, a call that makes an element and returns one has made
a new detached element: it has the given identification, the type of its symbol (or, for a symbol without a fixed type, that of the call), and
reading it gives exactly the given value; a text is given by `getStr`. Everything else is as it was. What is missing: times beyond 32 bits are cut
off (`C61_time_false`), and numbers for a symbol without a fixed type are refused (`C61_variant_false`). -/
theorem C61_made_partial (E : Env) (maxSize : Nat) (h1 : 0x4000 ≤ maxSize) (h2 : maxSize < 2147483648) (P Q : Pool) (D : Doc) (h : Sess E maxSize P D) (hr : D.ready true = true) (hs : D.syms true ≠ [])
    (id : Int) (hid : Is16 id) (w : TagArg) (o : Nat) (hw : P.tagArg E id w = .ok (Q, some o)) :
    ∃ D', Sess E maxSize Q D' ∧ GotElem o D D' ∧ D'.id o = id ∧ D'.type o = newType w (D.symType true id) ∧ Q.eId o = .ok id ∧
      (newType w (D.symType true id) ≠ BLOB_STRING → elemValue Q o = .ok ⟨newType w (D.symType true id), tagValue w⟩) ∧
      ∀ m, w = .str (some m) → readText Q o = .ok (some (m.takeWhile (· ≠ 0))) := by
  obtain ⟨k, t, v, n, bs, a1, a2, a3, a4, a5, a6, a7, a8, a9, a10⟩ := tagArg_spec h1 h2 h hid hr hs hw
  obtain ⟨els, V, fl, kp⟩ := sess_keeps h1 h2 a10
  have ht := newType_spec a1 a2
  have hl : (D.plus k o true id t v).forest.at' (.loose k) = [o] := if_pos rfl
  have ho : o ∈ els := (kp.lists.mem o).1 ⟨.loose k, by rw [hl]; simp⟩
  have hty : (D.plus k o true id t v).type o = t := if_pos rfl
  have hval : (D.plus k o true id t v).val o = v := if_pos rfl
  have hidd : (D.plus k o true id t v).id o = id := if_pos rfl
  have hE := kp.elem o ho
  rw [hty, hval, hidd] at hE
  have hsz := kp.sees.size
  rw [← ht]
  refine ⟨_, a10, plus_got h1 h2 h a5 a4, hidd, hty, hE.eId hsz.1, fun hb => ?_, fun m hm => ?_⟩
  · rw [elemValue_read hE hsz.1 a7, a8 hb]
  · have hbs := a9 m hm
    refine readText_spec kp ho (l := List.replicate n 0) (cPrefix_noNul m) (if_pos rfl) hr hs ?_
    rw [hty, hval, a6, hbs]
    subst hm
    simp only [TagArg.typeFor] at a1
    split at a1
    · cases a1
      exact Or.inl ⟨rfl, by simp [sizeField, isVarsize, cPrefix]⟩
    · split at a1
      · cases a1
        exact Or.inr ⟨rfl, _, by simp [sizeField, isVarsize, cPrefix]; rfl⟩
      · cases a1

/-- C61: a call that returns a null pointer changes nothing. -/
theorem C61_refused (E : Env) (maxSize : Nat) (h1 : 0x4000 ≤ maxSize) (h2 : maxSize < 2147483648) (P Q : Pool) (D : Doc) (h : Sess E maxSize P D) (hr : D.ready true = true) (hs : D.syms true ≠ [])
    (id : Int) (hid : Is16 id) (w : TagArg) (hw : P.tagArg E id w = .ok (Q, none)) : Sess E maxSize Q D := tagArg_spec h1 h2 h hid hr hs hw

/-- the memory an argument points to holds the value -/
def ArgOk : TagArg → Prop
  | .str v => ∃ m, v = some m ∧ (0 : UInt8) ∈ m
  | .blob v n | .hex v n => ∀ m, v = some m → n ≤ m.length
  | .guid m => 16 ≤ m.length
  | .sha1 m => 20 ≤ m.length
  | _ => True

/-- the types of symbols a call is for: its own type, no fixed type, and all numbers of 32 bits for `tagInt32`, both kinds of texts for `tagStr` -/
def FitsSym : TagArg → XBT → Prop
  | .str _, t => t = STRING ∨ t = BLOB_STRING ∨ t = VARIANT
  | .blob _ _, t => t = BLOB ∨ t = VARIANT
  | .hex _ _, t => t = HEX
  | .int32 _, t => is4 t = true
  | .int64 _, t => t = INT64 ∨ t = VARIANT
  | .float _, t => t = FLOAT
  | .guid _, t => t = GUID
  | .sha1 _, t => t = SHA1
  | .time _, t => t = UNIX_TIME ∨ t = VARIANT
  | .time64 _, t => t = UNIX_TIME64_MSEC ∨ t = VARIANT
  | _, _ => False

/-- C61: a call with a value of the type of the symbol makes an element, when there is room. -/
theorem C61_succeeds (E : Env) (hE : ∀ n, E.trunc n = true) (maxSize : Nat) (h1 : 0x4000 ≤ maxSize) (h2 : maxSize < 2147483648) (P : Pool) (D : Doc) (h : Sess E maxSize P D) (hr : D.ready true = true)
    (hs : D.syms true ≠ []) (id : Int) (w : TagArg) (hf : FitsSym w (D.symType true id)) (ha : ArgOk w) (room : P.alloc + 2 * w.size + 0x6000 ≤ P.mmapSize) :
    ∃ Q o, P.tagArg E id w = .ok (Q, some o) := by
  obtain ⟨els, V, fl, k⟩ := sess_keeps h1 h2 h
  have hsm := k.sees.small
  have hmis : ¬ w.missing = true := by cases w <;> first | exact Bool.false_ne_true | exact absurd hf not_false
  have hty : w.typeFor (D.symType true id) = some (newType w (D.symType true id)) ∧ newType w (D.symType true id) ≠ VARIANT := by
    generalize D.symType true id = t at hf
    unfold newType
    cases w <;> simp only [FitsSym] at hf
    case str => rcases hf with rfl | rfl | rfl <;> exact ⟨rfl, fun h => nomatch h⟩
    case blob => rcases hf with rfl | rfl <;> exact ⟨rfl, fun h => nomatch h⟩
    case int32 => cases t <;> first | (exact absurd hf (by decide)) | exact ⟨rfl, fun h => nomatch h⟩
    case int64 => rcases hf with rfl | rfl <;> exact ⟨rfl, fun h => nomatch h⟩
    case time => rcases hf with rfl | rfl <;> exact ⟨rfl, fun h => nomatch h⟩
    case time64 => rcases hf with rfl | rfl <;> exact ⟨rfl, fun h => nomatch h⟩
    all_goals (subst hf; exact ⟨rfl, fun h => nomatch h⟩)
  obtain ⟨bs, hb, hbl⟩ : ∃ bs, w.bytes = .ok bs ∧ bs.length ≤ w.space := by
    cases w <;> simp only [ArgOk] at ha <;> simp only [TagArg.bytes]
    case str =>
      obtain ⟨m, rfl, hm⟩ := ha
      obtain ⟨l, hl⟩ := cPrefix_mem hm
      have hlen := congrArg List.length hl
      simp only [List.length_append, List.length_cons] at hlen
      simp only
      rw [if_neg (by omega)]
      exact ⟨_, rfl, by simp [TagArg.space]; omega⟩
    case blob v n =>
      cases v with
      | none => exact ⟨_, rfl, by simp [TagArg.space]; omega⟩
      | some m => have := ha m rfl; simp only; rw [if_neg (by omega)]; exact ⟨_, rfl, by simp [TagArg.space]; omega⟩
    case hex v n =>
      cases v with
      | none => exact ⟨_, rfl, by simp [TagArg.space]; omega⟩
      | some m => have := ha m rfl; simp only; rw [if_neg (by omega)]; exact ⟨_, rfl, by simp [TagArg.space]; omega⟩
    case guid m => rw [if_neg (by omega)]; exact ⟨_, rfl, by simp [TagArg.space]; omega⟩
    case sha1 m => rw [if_neg (by omega)]; exact ⟨_, rfl, by simp [TagArg.space]; omega⟩
    all_goals exact ⟨_, rfl, by simp [TagArg.space]⟩
  have hspace : w.space ≤ 2 * w.size + 0x4008 := by
    cases w <;> simp only [TagArg.space, TagArg.size] <;> try omega
    case str v => cases v <;> simp only [TagArg.space, TagArg.size] <;> omega
  obtain ⟨t, ht⟩ : ∃ t, t = newType w (D.symType true id) := ⟨_, rfl⟩
  rw [← ht] at hty
  obtain ⟨z1, z2, z3⟩ := tag_size hty.1 hty.2 (by omega)
  obtain ⟨n, n1, -⟩ := tag_value hty.1 hty.2 hb (by omega) (by omega)
  obtain ⟨P1, p1, p2, p3, p4, p5⟩ := makeSpace_ok hE k.sees.ok hsm (n := w.space) (by omega)
  have hs1 := Sess.space h p1
  obtain ⟨els1, V1, fl1, k1⟩ := sess_keeps h1 h2 hs1
  have hoff : (if isVarsize t = true then 4 else 0) = (sizeField t 0).length := by
    unfold sizeField; split <;> simp
  obtain ⟨Q, o, hm⟩ := make_ok (E := E) (id := id) (fl := 1) (bs := bs) (off := (sizeField t 0).length) k1.sees.ok k1.sees.small z1 z3 (by rw [List.length_append] at n1; omega) (by omega)
  unfold Pool.tagArg
  rw [if_neg hmis, symType_spec k hr hs, Out.ok_bind, Option.bind_some, hty.1]
  simp only
  rw [hb, Out.ok_bind, p1, Out.ok_bind, hoff]
  simp only [if_true]
  exact ⟨Q, o, hm⟩

/-! ### documents -/

/-- a document with a tag `x` of a given type -/
def bench1 (t : XBT) : Pool := poolOfReg ((Pool.empty 0x10000).register true (b8 "x") t)
def bench2 (t : XBT) : Pool := poolOfB ((bench1 t).allRegistered demoEnv)

theorem bench_sess (t : XBT) (ht : t ∈ [STRING, BLOB_STRING, INT32, VARIANT, SHA1, UNIX_TIME]) : ∃ D, Sess demoEnv 0x10000 (bench2 t) D ∧ D.syms true = [⟨b8 "x", t⟩] ∧ D.ready true = true ∧ (∀ q, D.forest.at' q = []) := by
  have r1 : (Pool.empty 0x10000).register true (b8 "x") t = .ok (bench1 t, 0) := by
    simp only [List.mem_cons, List.not_mem_nil, or_false] at ht
    rcases ht with rfl | rfl | rfl | rfl | rfl | rfl <;> exact poolOfReg_eq (by decide +kernel)
  have r2 : (bench1 t).allRegistered demoEnv = .ok (bench2 t, true) := by
    simp only [List.mem_cons, List.not_mem_nil, or_false] at ht
    rcases ht with rfl | rfl | rfl | rfl | rfl | rfl <;> exact poolOfB_eq (by decide +kernel)
  have s1 := Sess.registered (E := demoEnv) (maxSize := 0x10000) Sess.start (by decide) (by decide) (Or.inl (by decide)) r1 (by decide)
  exact ⟨_, Sess.allRegistered s1 r2, by rfl, by simp, fun _ => rfl⟩

/-- the hypotheses of `C61_succeeds` and of `C61_made_partial` are met by a text of 20 characters, a digest and a number -/
example : ∃ Q o, (bench2 BLOB_STRING).tagArg demoEnv 0 (.str (some (b8 "twenty characters ..." ++ [0]))) = .ok (Q, some o) ∧ readText Q o = .ok (some (b8 "twenty characters ...")) := by
  obtain ⟨D, h, h1, h2, h3⟩ := bench_sess BLOB_STRING (by simp)
  have hs : D.syms true ≠ [] := by rw [h1]; simp
  have ht : D.symType true 0 = BLOB_STRING := by unfold Doc.symType; rw [h1]; rfl
  obtain ⟨Q, o, hw⟩ := C61_succeeds demoEnv (fun _ => rfl) 0x10000 (by decide) (by decide) _ D h h2 hs 0 (.str (some (b8 "twenty characters ..." ++ [0]))) (by rw [ht]; exact Or.inr (Or.inl rfl))
    ⟨_, rfl, by simp⟩ (by decide +kernel)
  obtain ⟨D', -, -, -, -, -, -, a7⟩ := C61_made_partial demoEnv 0x10000 (by decide) (by decide) _ Q D h h2 hs 0 (by unfold Is16; decide) _ o hw
  exact ⟨Q, o, hw, a7 _ rfl⟩

example : ∃ Q o, (bench2 SHA1).tagArg demoEnv 0 (.sha1 (List.replicate 20 7)) = .ok (Q, some o) ∧ elemValue Q o = .ok ⟨SHA1, List.replicate 20 7⟩ := by
  obtain ⟨D, h, h1, h2, h3⟩ := bench_sess SHA1 (by simp)
  have hs : D.syms true ≠ [] := by rw [h1]; simp
  have ht : D.symType true 0 = SHA1 := by unfold Doc.symType; rw [h1]; rfl
  obtain ⟨Q, o, hw⟩ := C61_succeeds demoEnv (fun _ => rfl) 0x10000 (by decide) (by decide) _ D h h2 hs 0 (.sha1 (List.replicate 20 7)) (by rw [ht]; rfl) (by simp [ArgOk]) (by decide +kernel)
  obtain ⟨D', -, -, -, -, -, a6, -⟩ := C61_made_partial demoEnv 0x10000 (by decide) (by decide) _ Q D h h2 hs 0 (by unfold Is16; decide) _ o hw
  rw [ht] at a6
  exact ⟨Q, o, hw, a6 (by decide)⟩

/-- C61 is false for times that need more than 32 bits: the element made for a time in the year 2106 shows the time 0. -/
theorem C61_time_false : (∃ D, Sess demoEnv 0x10000 (bench2 UNIX_TIME) D ∧ D.symType true 0 = UNIX_TIME ∧ D.ready true = true) ∧
    ∃ Q o, (bench2 UNIX_TIME).tagArg demoEnv 0 (.time 4294967296) = .ok (Q, some o) ∧ elemValue Q o = .ok ⟨UNIX_TIME, le32 0⟩ := by
  obtain ⟨D, h, h1, h2, h3⟩ := bench_sess UNIX_TIME (by simp)
  have ht : D.symType true 0 = UNIX_TIME := by unfold Doc.symType; rw [h1]; rfl
  refine ⟨⟨D, h, ht, h2⟩, _, 104, poolOf_eq (by decide +kernel), by decide +kernel⟩

/-- C61 is false for numbers where the symbol has no fixed type: `tagStr` and `tagInt64` make an element, `tagInt32` never does. -/
theorem C61_variant_false (E : Env) (maxSize : Nat) (h1 : 0x4000 ≤ maxSize) (h2 : maxSize < 2147483648) (P Q : Pool) (D : Doc) (h : Sess E maxSize P D) (hr : D.ready true = true) (hs : D.syms true ≠ [])
    (id v : Int) (hid : Is16 id) (ht : D.symType true id = VARIANT) (r : Option Nat) (hw : P.tagArg E id (.int32 v) = .ok (Q, r)) : r = none := by
  cases r with
  | none => rfl
  | some o =>
    obtain ⟨k, t, -, -, -, a1, a2, -⟩ := tagArg_spec h1 h2 h hid hr hs hw
    rw [ht] at a1
    cases a1
    exact absurd rfl a2

example : (∃ D, Sess demoEnv 0x10000 (bench2 VARIANT) D ∧ D.symType true 0 = VARIANT ∧ D.ready true = true ∧ D.syms true ≠ []) ∧ (∃ Q, (bench2 VARIANT).tagArg demoEnv 0 (.int32 5) = .ok (Q, none)) ∧
    ∃ Q, (bench2 VARIANT).tagArg demoEnv 0 (.int64 5) = .ok (Q, some 104) := by
  obtain ⟨D, h, h1, h2, h3⟩ := bench_sess VARIANT (by simp)
  refine ⟨⟨D, h, by unfold Doc.symType; rw [h1]; rfl, h2, by rw [h1]; simp⟩, ?_, _, poolOf_eq (by decide +kernel)⟩
  have hc : (match (bench2 VARIANT).tagArg demoEnv 0 (.int32 5) with | .ok (_, none) => true | _ => false) = true := by decide +kernel
  match he : (bench2 VARIANT).tagArg demoEnv 0 (.int32 5) with
  | .ok (Q, none) => exact ⟨Q, rfl⟩
  | .ok (Q, some _) => rw [he] at hc; cases hc
  | .fail => rw [he] at hc; cases hc
  | .ub => rw [he] at hc; cases hc

/-- C61: the calls `tagHexStr`, `tagUInt32`, `tagUInt64`, `tagDouble`, `tagIPv4` and `tagIPv6` never make an element. -/
theorem C61_missing_false (E : Env) (P : Pool) (id : Int) (w : TagArg) (hw : w = .hexStr ∨ w = .uint32 ∨ w = .uint64 ∨ w = .double ∨ w = .ipv4 ∨ w = .ipv6) : P.tagArg E id w = .ok (P, none) := by
  rcases hw with rfl | rfl | rfl | rfl | rfl | rfl <;> rfl

end BX
