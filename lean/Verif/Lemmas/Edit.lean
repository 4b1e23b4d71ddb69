import Verif.Props.Copy
import Verif.Props.Types
import Verif.Spec.Edit
/-
Making elements with values and changing values of children.
-/
namespace BX
open XBT Spec

/-! ### fresh memory is zero -/

theorem allocFor_zero {P Q : Pool} (hP : PoolOk P) {t : XBT} {size : Int} {o : Nat} (h : P.allocFor t size = .ok (Q, some o)) : ∀ i, o ≤ i → i < Q.alloc → Q.mem i = 0 := by
  unfold Pool.allocFor at h
  split at h
  · obtain ⟨-, -, -, -, -, -, a7⟩ := AllocOp.run_spec (E := ⟨true, fun _ => true⟩) (op := .eight size) hP h
    exact (a7 o rfl).2.2.2.2
  · obtain ⟨-, -, -, -, -, -, a7⟩ := AllocOp.run_spec (E := ⟨true, fun _ => true⟩) (op := .four size) hP h
    exact (a7 o rfl).2.2.2.2

theorem allocGrow_zero {E : Env} {P Q : Pool} (hP : PoolOk P) {t : XBT} {size o : Nat} (h : P.allocGrow E t size = .ok (Q, some o)) : ∀ i, o ≤ i → i < Q.alloc → Q.mem i = 0 := by
  unfold Pool.allocGrow at h
  obtain ⟨⟨Q1, r1⟩, h1, h⟩ := Out.bind_eq_ok h
  cases r1 with
  | some o' =>
    simp only [Out.pure_eq, Out.ok.injEq, Prod.mk.injEq, Option.some.injEq] at h
    obtain ⟨rfl, rfl⟩ := h
    exact allocFor_zero hP h1
  | none =>
    simp only at h
    have g1 := (allocFor_spec hP h1).1
    split at h
    · simp at h
    · obtain ⟨⟨Q2, b⟩, h2, h⟩ := Out.bind_eq_ok h
      have g3 := makeSpace_got g1.ok h2
      simp only at h
      split at h
      · simp at h
      · exact allocFor_zero g3.ok h

/-- bytes that are not touched by a write -/
theorem wr_frame {P Q : Pool} {A : Int} {bs : List UInt8} (h : P.wr A bs = .ok Q) {i : Nat} (hi : (i : Int) < A ∨ A + bs.length ≤ i) : Q.mem i = P.mem i ∧ Q.alloc = P.alloc ∧ Q.fileSize = P.fileSize := by
  obtain ⟨a, rfl, -, rfl⟩ := Pool.wr_ok h
  exact ⟨memPut_frame _ _ _ _ (by omega), rfl, rfl⟩

theorem newElement_zero {E : Env} {P Q : Pool} (hP : PoolOk P) {t : XBT} {size o : Nat} (h : P.newElement E t size = .ok (Q, some o)) :
    ∀ i, o + 24 + (sizeField t 0).length ≤ i → i < Q.alloc → Q.mem i = 0 := by
  unfold Pool.newElement at h
  split at h
  · simp at h
  · obtain ⟨⟨Q1, r1⟩, h1, h⟩ := Out.bind_eq_ok h
    cases r1 with
    | none => simp at h
    | some o' =>
      simp only at h
      obtain ⟨P1, w1, h⟩ := Out.bind_eq_ok h
      obtain ⟨P2, w2, h⟩ := Out.bind_eq_ok h
      obtain ⟨P3, w3, h⟩ := Out.bind_eq_ok h
      obtain ⟨P4, w4, h⟩ := Out.bind_eq_ok h
      have l4 : ∀ v : Int, (le32 v).length = 4 := fun v => by simp
      have key : ∀ i, o' + 24 ≤ i → i < P4.alloc → P4.mem i = 0 := by
        intro i i1 i2
        obtain ⟨a1, b1, -⟩ := wr_frame w1 (i := i) (by simp; omega)
        obtain ⟨a2, b2, -⟩ := wr_frame w2 (i := i) (by rw [l4]; omega)
        obtain ⟨a3, b3, -⟩ := wr_frame w3 (i := i) (by rw [l4]; omega)
        obtain ⟨a4, b4, -⟩ := wr_frame w4 (i := i) (by rw [l4]; omega)
        rw [a4, a3, a2, a1]
        exact allocGrow_zero hP h1 i (by omega) (by omega)
      unfold sizeField
      split at h
      · rename_i hv
        obtain ⟨P5, w5, h⟩ := Out.bind_eq_ok h
        simp only [Out.pure_eq, Out.ok.injEq, Prod.mk.injEq, Option.some.injEq] at h
        obtain ⟨rfl, rfl⟩ := h
        intro i i1 i2
        rw [if_pos hv, l4] at i1
        obtain ⟨a5, b5, -⟩ := wr_frame w5 (i := i) (by rw [l4]; omega)
        rw [a5]
        exact key i (by omega) (by omega)
      · simp only [Out.pure_eq, Out.ok.injEq, Prod.mk.injEq, Option.some.injEq] at h
        obtain ⟨rfl, rfl⟩ := h
        intro i i1 i2
        exact key i (by omega) i2

theorem memPut_pad {m : Mem} {a n : Nat} {bs : List UInt8} (h : ∀ i, a + bs.length ≤ i → i < a + bs.length + n → m i = 0) : memPut m a (bs ++ List.replicate n 0) = memPut m a bs := by
  funext i
  unfold memPut
  by_cases h1 : a ≤ i ∧ i < a + bs.length
  · rw [if_pos h1, if_pos (by simp; omega)]
    simp only [List.getD_eq_getElem?_getD]
    rw [List.getElem?_append_left (by omega)]
  · rw [if_neg h1]
    by_cases h2 : a ≤ i ∧ i < a + (bs ++ List.replicate n (0 : UInt8)).length
    · rw [if_pos h2]
      simp at h2
      simp only [List.getD_eq_getElem?_getD]
      rw [List.getElem?_append_right (by omega), List.getElem?_replicate, if_pos (by omega), h i (by omega) (by omega)]
      rfl
    · rw [if_neg h2]

/-- zeros behind the value of a new element need not be written -/
theorem make_pad {E : Env} {P Q : Pool} (hP : PoolOk P) {id : Int} {t : XBT} {size o n : Nat} {fl : UInt8} {bs : List UInt8} (h : P.make E id t size fl (sizeField t 0).length bs = .ok (Q, some o))
    (hn : (sizeField t 0).length + bs.length + n ≤ (size2 t size).toNat) : P.make E id t size fl (sizeField t 0).length (bs ++ List.replicate n 0) = .ok (Q, some o) := by
  have hsp := (make_spec hP h)
  obtain ⟨-, -, -, -, b4, -⟩ := hsp.2 o rfl
  have hle := hsp.1.ok.le
  have hlim := hsp.1.ok.lim
  unfold Pool.make at h ⊢
  obtain ⟨⟨Q1, r1⟩, h1, h⟩ := Out.bind_eq_ok h
  rw [h1, Out.ok_bind]
  cases r1 with
  | none => simp at h
  | some o' =>
    simp only at h ⊢
    obtain ⟨P1, w1, h⟩ := Out.bind_eq_ok h
    obtain ⟨P2, w2, h⟩ := Out.bind_eq_ok h
    simp only [Out.pure_eq, Out.ok.injEq, Prod.mk.injEq, Option.some.injEq] at h
    obtain ⟨rfl, rfl⟩ := h
    rw [w1, Out.ok_bind]
    obtain ⟨a, ha, hfs, rfl⟩ := Pool.wr_ok w2
    have : a = o' + 24 + (sizeField t 0).length := by omega
    subst this
    obtain ⟨a', ha', hfs', rfl⟩ := Pool.wr_ok w1
    have : a' = o' := by omega
    subst this
    have hlen : (elemBytes a' id t fl).length = 24 := elemBytes_length ..
    unfold elemBytes at hlen
    rw [Pool.wr_eq (a := a' + 24 + (sizeField t 0).length) (by simp only [List.length_append, List.length_replicate] at *; omega) _ (by omega)]
    rw [memPut_pad]
    · rfl
    · intro i i1 i2
      simp only at b4 ⊢
      rw [memPut_frame _ _ _ _ (by rw [hlen]; omega)]
      exact newElement_zero hP h1 i (by omega) (by omega)

/-! ### the values of new elements -/

theorem newType_spec {w : TagArg} {s t : XBT} (h : w.typeFor s = some t) (hv : t ≠ VARIANT) : t = newType w s := by
  unfold newType
  cases w <;> simp only [TagArg.typeFor] at h
  case str => split at h <;> (try split at h) <;> simp_all [argType] <;> (intro h'; simp_all)
  case blob => split at h <;> simp_all [argType]; intro h'; simp_all
  case hex => split at h <;> simp_all [argType]
  case int32 => split at h <;> simp_all [argType]
  case int64 => split at h <;> simp_all [argType]; intro h'; simp_all
  case float => split at h <;> simp_all [argType]
  case guid => split at h <;> simp_all [argType]
  case sha1 => split at h <;> simp_all [argType]
  case time => split at h <;> simp_all [argType]; intro h'; simp_all
  case time64 => split at h <;> simp_all [argType]; intro h'; simp_all
  all_goals cases h

/-- the stored bytes of a new element, with zeros behind them -/
theorem tag_value {w : TagArg} {s t : XBT} {bs : List UInt8} (ht : w.typeFor s = some t) (hv : t ≠ VARIANT) (hb : w.bytes = .ok bs) (hs : (size2 t w.size).toNat + 4 < 2147483648) (hsp : w.space < 2147483648) :
    ∃ n, (sizeField t 0).length + (bs ++ List.replicate n 0).length = (size2 t w.size).toNat ∧ GoodVal t (sizeField t (size2 t w.size - 4) ++ (bs ++ List.replicate n 0)) ∧
      (t ≠ BLOB_STRING → readable t (sizeField t (size2 t w.size - 4) ++ (bs ++ List.replicate n 0)) = tagValue w) ∧
      ∀ m, w = .str (some m) → bs = m.takeWhile (· ≠ 0) ++ [0] := by
  cases w with
  | str v =>
    cases v with
    | none => cases hb
    | some m =>
      simp only [TagArg.bytes] at hb
      split at hb
      · cases hb
      · simp only [Out.ok.injEq] at hb; subst hb
        simp only [TagArg.typeFor] at ht
        split at ht
        · cases ht
          refine ⟨0, by simp [sizeField, isVarsize, size2, TagArg.size], by simp [GoodVal], fun _ => ?_, fun m' h => by cases h; rfl⟩
          have he : sizeField STRING (size2 STRING (TagArg.str (some m)).size - 4) ++ (cPrefix m ++ [0] ++ List.replicate 0 0) = cPrefix m ++ 0 :: [] := by
            simp [sizeField, isVarsize]
          rw [he]
          show ((cPrefix m ++ 0 :: []).takeWhile (· ≠ 0)) ++ [0] = cPrefix m ++ [0]
          rw [takeWhile_prefix0]
        · split at ht
          · cases ht
            simp only [TagArg.space] at hsp
            obtain ⟨c, c1, c2, -⟩ := C15_capacity (cPrefix m).length (by omega)
            have hc : blobStringSize (cPrefix m).length = c := by unfold blobStringSize; rw [c1]
            refine ⟨c - ((cPrefix m).length + 1), ?_, ?_, fun h => absurd rfl h, fun m' h => by cases h; rfl⟩
            · simp [sizeField, isVarsize, size2, TagArg.size, hc]; omega
            · refine ⟨cPrefix m ++ [0] ++ List.replicate (c - ((cPrefix m).length + 1)) 0, ?_, ?_⟩
              · congr 1
                simp only [sizeField, isVarsize, size2, TagArg.size, hc]
                show le32 _ = _
                congr 1
                simp; omega
              · simp only [size2, TagArg.size, hc] at hs
                simp; omega
          · cases ht
  | hexStr => cases ht
  | uint32 => cases ht
  | uint64 => cases ht
  | double => cases ht
  | ipv4 => cases ht
  | ipv6 => cases ht
  | blob v n =>
    simp only [TagArg.typeFor] at ht
    split at ht <;> cases ht
    have hbs : bs.length = n ∧ tagValue (.blob v n) = le32 n ++ bs := by
      cases v with
      | none => simp only [TagArg.bytes, Out.ok.injEq] at hb; subst hb; exact ⟨by simp, rfl⟩
      | some m =>
        simp only [TagArg.bytes] at hb
        split at hb
        · cases hb
        · simp only [Out.ok.injEq] at hb; subst hb; exact ⟨by rw [List.length_take]; omega, rfl⟩
    obtain ⟨h1, h2⟩ := hbs
    have hsz : size2 BLOB (TagArg.size (.blob v n)) - 4 = (bs.length : Int) := by simp [size2, TagArg.size, h1]
    refine ⟨0, by simp [sizeField, isVarsize, size2, TagArg.size, h1]; omega, ?_, fun _ => ?_, fun m h => by cases h⟩
    · rw [hsz]; exact ⟨bs, by simp [sizeField, isVarsize], by simp only [TagArg.size, size2] at hs; omega⟩
    · rw [hsz, h2, h1]; simp [readable, sizeField, isVarsize]
  | hex v n =>
    simp only [TagArg.typeFor] at ht
    split at ht <;> cases ht
    have hbs : bs.length = n ∧ tagValue (.hex v n) = le32 n ++ bs := by
      cases v with
      | none => simp only [TagArg.bytes, Out.ok.injEq] at hb; subst hb; exact ⟨by simp, rfl⟩
      | some m =>
        simp only [TagArg.bytes] at hb
        split at hb
        · cases hb
        · simp only [Out.ok.injEq] at hb; subst hb; exact ⟨by rw [List.length_take]; omega, rfl⟩
    obtain ⟨h1, h2⟩ := hbs
    have hsz : size2 HEX (TagArg.size (.hex v n)) - 4 = (bs.length : Int) := by simp [size2, TagArg.size, h1]
    refine ⟨0, by simp [sizeField, isVarsize, size2, TagArg.size, h1]; omega, ?_, fun _ => ?_, fun m h => by cases h⟩
    · rw [hsz]; exact ⟨bs, by simp [sizeField, isVarsize], by simp only [TagArg.size, size2] at hs; omega⟩
    · rw [hsz, h2, h1]; simp [readable, sizeField, isVarsize]
  | int32 v =>
    simp only [TagArg.bytes, Out.ok.injEq] at hb; subst hb
    simp only [TagArg.typeFor] at ht
    split at ht
    · cases ht
      rename_i h
      have h4 : is4 s = true := h.resolve_right hv
      refine ⟨0, ?_⟩
      cases s <;> first | (exact absurd h4 (by decide)) |
        exact ⟨by simp [sizeField, isVarsize, size2, TagArg.size], by simp [GoodVal, sizeField, isVarsize, is4, isINT32], fun _ => by simp [readable, sizeField, isVarsize, tagValue], fun m h => by cases h⟩
    · cases ht
  | guid m =>
    simp only [TagArg.typeFor] at ht
    split at ht <;> cases ht
    simp only [TagArg.bytes] at hb
    split at hb
    · cases hb
    · rename_i hm
      simp only [Out.ok.injEq] at hb; subst hb
      refine ⟨0, by simp [sizeField, isVarsize, size2, TagArg.size]; omega, ?_, fun _ => by simp [readable, sizeField, isVarsize, tagValue], fun m h => by cases h⟩
      simp [GoodVal, sizeField, isVarsize, is4, isINT32, fixedSize]; omega
  | sha1 m =>
    simp only [TagArg.typeFor] at ht
    split at ht <;> cases ht
    simp only [TagArg.bytes] at hb
    split at hb
    · cases hb
    · rename_i hm
      simp only [Out.ok.injEq] at hb; subst hb
      refine ⟨4, by simp [sizeField, isVarsize, size2, TagArg.size]; omega, ?_, fun _ => ?_, fun m h => by cases h⟩
      · simp [GoodVal, sizeField, isVarsize]; omega
      · simp only [readable, sizeField, isVarsize, tagValue]
        show (m.take 20 ++ List.replicate 4 0).take 20 = m.take 20
        rw [List.take_append_of_le_length (by rw [List.length_take]; omega), List.take_take]; simp
  | _ =>
    simp only [TagArg.typeFor] at ht
    split at ht <;> cases ht
    simp only [TagArg.bytes, Out.ok.injEq] at hb; subst hb
    exact ⟨0, by simp [sizeField, isVarsize, size2, TagArg.size], by simp [GoodVal, sizeField, isVarsize, is4, isINT32, fixedSize], fun _ => by simp [readable, sizeField, isVarsize, tagValue], fun m h => by cases h⟩

/-- the sizes of new elements -/
theorem tag_size {w : TagArg} {s t : XBT} (ht : w.typeFor s = some t) (hv : t ≠ VARIANT) (hsp : w.space < 2147483648) :
    0 ≤ size2 t w.size ∧ (size2 t w.size).toNat + 40 ≤ w.space ∧ (isVarsize t = true → 4 ≤ size2 t w.size) := by
  cases w <;> simp only [TagArg.typeFor] at ht
  case str v =>
    have hk : ∀ n, 0x4000 + 2 * n < 2147483648 → 4 + blobStringSize n ≤ 2 * n + 24 := by
      intro n hn
      obtain ⟨c, c1, c2, c3, c4, -⟩ := C15_capacity n (by omega)
      have hc : blobStringSize n = c := by unfold blobStringSize; rw [c1]
      rw [hc]
      by_cases h16 : 16 < n + 1
      · have := c4 h16; omega
      · have : c = 16 := by
          unfold blobStringSizeC at c1
          simp only at c1
          rw [if_neg (by omega), if_pos (by omega)] at c1
          cases c1; rfl
        omega
    have hsz : ∃ n, (TagArg.str v).size = n ∧ 0x4000 + 2 * n < 2147483648 ∧ 0x4000 + 2 * n ≤ (TagArg.str v).space := by
      cases v with
      | none => exact ⟨0, rfl, by omega, by simp [TagArg.space]⟩
      | some m => exact ⟨_, rfl, hsp, Nat.le_refl _⟩
    obtain ⟨n, hn, hn', hn2⟩ := hsz
    rw [hn]
    have := hk n hn'
    split at ht
    · cases ht; simp only [size2, isVarsize]; exact ⟨by omega, by omega, fun h => by cases h⟩
    · split at ht <;> cases ht
      simp only [size2]; exact ⟨by omega, by omega, fun _ => by omega⟩
  case blob => split at ht <;> cases ht; simp only [size2, TagArg.size, TagArg.space]; exact ⟨by omega, by omega, fun _ => by omega⟩
  case hex => split at ht <;> cases ht; simp only [size2, TagArg.size, TagArg.space]; exact ⟨by omega, by omega, fun _ => by omega⟩
  case int32 =>
    split at ht <;> cases ht
    rename_i h
    have h4 : is4 s = true := h.resolve_right hv
    simp only [TagArg.size, TagArg.space]
    cases s <;> first | (exact absurd h4 (by decide)) | decide
  case int64 => split at ht <;> cases ht; simp only [TagArg.size, TagArg.space]; decide
  case float => split at ht <;> cases ht; simp only [TagArg.size, TagArg.space]; decide
  case guid => split at ht <;> cases ht; simp only [TagArg.size, TagArg.space]; decide
  case sha1 => split at ht <;> cases ht; simp only [TagArg.size, TagArg.space]; decide
  case time => split at ht <;> cases ht; simp only [TagArg.size, TagArg.space]; decide
  case time64 => split at ht <;> cases ht; simp only [TagArg.size, TagArg.space]; decide
  all_goals cases ht

/-- a new tag -/
theorem plus_got {E : Env} {maxSize : Nat} (h1 : 0x4000 ≤ maxSize) (h2 : maxSize < 2147483648) {P : Pool} {D : Doc} (h : Sess E maxSize P D) {k o : Nat} {id : Int} {t : XBT} {v : List UInt8} (ho : ¬ D.forest.Elem o)
    (hk : D.forest.at' (.loose k) = []) : GotElem o D (D.plus k o true id t v) := by
  obtain ⟨els, V, fl, kp⟩ := sess_keeps h1 h2 h
  have hne : ∀ e, D.forest.Elem e → e ≠ o := fun e he hc => ho (hc ▸ he)
  refine ⟨ho, if_pos rfl, ?_, ⟨k, hk, if_pos rfl, fun q hq => if_neg hq⟩, fun e he => ⟨if_neg (hne e he), if_neg (hne e he), if_neg (hne e he), if_neg (hne e he)⟩, rfl, rfl, rfl⟩
  rw [plus_at, plus_at, if_neg (by simp), if_neg (by simp)]
  have hown : ∀ f, f = 16 ∨ f = 20 → D.forest.at' (lst f o) = [] := fun f hf => by
    cases hl : D.forest.at' (lst f o) with
    | nil => rfl
    | cons a l => exact absurd ((kp.lists.mem o).2 (kp.lists.own o f (by rw [hl]; simp))) ho
  exact ⟨hown 16 (Or.inl rfl), hown 20 (Or.inr rfl)⟩

/-- an element has been made by one of the calls of the plugin -/
theorem tagArg_spec {E : Env} {maxSize : Nat} (h1 : 0x4000 ≤ maxSize) (h2 : maxSize < 2147483648) {P Q : Pool} {D : Doc} (h : Sess E maxSize P D) {id : Int} (hid : Is16 id) {w : TagArg} {r : Option Nat}
    (hr : D.ready true = true) (hs : D.syms true ≠ []) (hw : P.tagArg E id w = .ok (Q, r)) :
    match r with
    | none => Sess E maxSize Q D
    | some o => ∃ k t v n bs, w.typeFor (D.symType true id) = some t ∧ t ≠ VARIANT ∧ w.bytes = .ok bs ∧ D.forest.at' (.loose k) = [] ∧ ¬ D.forest.Elem o ∧ v = sizeField t (size2 t w.size - 4) ++ (bs ++ List.replicate n 0) ∧
        GoodVal t v ∧ (t ≠ BLOB_STRING → readable t v = tagValue w) ∧ (∀ m, w = .str (some m) → bs = m.takeWhile (· ≠ 0) ++ [0]) ∧ Sess E maxSize Q (D.plus k o true id t v) := by
  obtain ⟨els, V, fl, k⟩ := sess_keeps h1 h2 h
  unfold Pool.tagArg at hw
  split at hw
  · simp only [Out.pure_eq, Out.ok.injEq, Prod.mk.injEq] at hw
    obtain ⟨rfl, rfl⟩ := hw
    exact h
  · rw [symType_spec k hr hs id, Out.ok_bind] at hw
    simp only [Option.bind_some] at hw
    cases ht : w.typeFor (D.symType true id) with
    | none =>
      rw [ht] at hw
      simp only [Out.pure_eq, Out.ok.injEq, Prod.mk.injEq] at hw
      obtain ⟨rfl, rfl⟩ := hw
      exact h
    | some t =>
      rw [ht] at hw
      simp only at hw
      obtain ⟨bs, hb, hw⟩ := Out.bind_eq_ok hw
      obtain ⟨⟨P1, b⟩, hsp, hw⟩ := Out.bind_eq_ok hw
      have hs1 := Sess.space h hsp
      cases b with
      | false =>
        simp only [Bool.false_eq_true, if_false, Out.pure_eq, Out.ok.injEq, Prod.mk.injEq] at hw
        obtain ⟨rfl, rfl⟩ := hw
        exact hs1
      | true =>
        simp only [if_true] at hw
        obtain ⟨els1, V1, fl1, k1⟩ := sess_keeps h1 h2 hs1
        have hoff : (if isVarsize t = true then 4 else 0) = (sizeField t 0).length := by
          unfold sizeField; split <;> simp
        rw [hoff] at hw
        have hspace : w.space < 2147483648 := by
          obtain ⟨-, -, -, -, -, -, -, -, s9, -⟩ := makeSpace_spec k.sees.ok hsp
          have := s9 rfl
          have := k1.sees.size
          omega
        cases r with
        | none => exact Sess.refused (b := true) hs1 hw
        | some o =>
          simp only
          have g := make_spec k1.sees.ok hw
          obtain ⟨b0, -, -, -, b4, -⟩ := g.2 o rfl
          have hz := (k1.sees.got g.1).size
          have hv : t ≠ VARIANT := by rintro rfl; simp [size2] at b0
          obtain ⟨n, n1, n2, n3, n4⟩ := tag_value ht hv hb (by omega) hspace
          obtain ⟨N, hN⟩ := sess_loose h
          have hpad := make_pad k1.sees.ok hw (n := n) (by rw [List.length_append, List.length_replicate] at n1; omega)
          have hmd := Sess.made (b := true) hs1 hid n1 hpad (hN N (Nat.le_refl _))
          refine ⟨N, t, _, n, bs, rfl, hv, hb, hN N (Nat.le_refl _), ?_, rfl, n2, n3, n4, hmd⟩
          intro hc
          exact (made_sees k1.sees hw).2 ((k1.lists.mem o).1 hc)

/-! ### reading -/

theorem elemValue_read {P : Pool} {e : Nat} {id : Int} {t : XBT} {v : List UInt8} (h : ElemAt P e id t v) (hs : P.alloc ≤ P.fileSize) (hg : GoodVal t v) : elemValue P e = .ok ⟨t, readable t v⟩ := by
  obtain ⟨r, r1, r2, r3, r4, r5, -⟩ := getData_spec h hs hg
  have hhi := h.hi
  have := readable_le t hg
  unfold elemValue
  rw [r1, Out.ok_bind, r2]
  simp only
  rw [if_neg (by omega), Img.rd_ok (f := P.img) (a := e + 24) r5 (by show _ ≤ P.fileSize; omega) _ (by omega) _ (by omega)]
  rfl

/-- the text of an element -/
theorem readText_spec {P : Pool} {D : Doc} {els V fl} (k : Keeps P D els V fl) {e : Nat} (he : e ∈ els) {s l : List UInt8} (hn : ∀ x ∈ s, x ≠ 0) (htag : D.forest.tag e = true) (hr : D.ready true = true) (hs : D.syms true ≠ [])
    (ht : D.type e = STRING ∧ D.val e = s ++ 0 :: l ∨ D.type e = BLOB_STRING ∧ ∃ z, D.val e = le32 z ++ (s ++ 0 :: l)) : readText P e = .ok (some s) := by
  have hsz := k.sees.size
  have hE := k.elem e he
  have hhi := hE.hi
  obtain ⟨st, hst⟩ : ∃ st, P.elemSymType (e : Int) = .ok st := by
    unfold Pool.elemSymType
    rw [k.sees.flags he, Out.ok_bind, hE.eId hsz.1, Out.ok_bind]
    have hdec : decide (fl e &&& 1 ≠ 0) = true := decide_eq_true ((k.lists.bit e he).2 htag)
    rw [hdec, symType_spec k hr hs]
    exact ⟨_, rfl⟩
  have hv := hE.val
  unfold readText Pool.getPtr
  rw [hst, Out.ok_bind, hE.eType hsz.1, Out.ok_bind, ofCode_code]
  simp only [Option.some.injEq, Out.pure_eq, Out.ok_bind]
  rcases ht with ⟨ht, hval⟩ | ⟨ht, z, hval⟩
  · rw [if_pos ht]
    simp only
    rw [hval] at hv hhi
    rw [show s ++ 0 :: l = (s ++ [0]) ++ l by simp, Has.append] at hv
    simp only [List.length_append, List.length_cons] at hhi
    rw [Img.str_ok (f := P.img) hv.1 hn (by show _ ≤ P.fileSize; omega) _ (by omega), Out.ok_bind]
  · rw [if_neg (by rw [ht]; decide), if_pos ht]
    simp only
    rw [hval] at hv hhi
    rw [show s ++ 0 :: l = (s ++ [0]) ++ l by simp, Has.append, Has.append] at hv
    have l4 : (le32 z).length = 4 := by simp
    simp only [List.length_append, List.length_cons, l4] at hhi
    rw [l4] at hv
    rw [Img.str_ok (f := P.img) hv.2.1 hn (by show _ ≤ P.fileSize; omega) _ (by omega), Out.ok_bind]

end BX
