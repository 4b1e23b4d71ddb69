import Verif.Spec.Search
import Verif.Lemmas.Attrs
import Verif.Props.Compare
import Verif.Props.Roundtrip
import Verif.Props.Attrs
/-
Property C52: searching a child by the value of an attribute.
-/
namespace BX
open XBT Spec

theorem slice_has {m : Mem} {a n : Nat} {v : List UInt8} (h : Has m a v) (hn : v.length ≤ n) : slice m a n = v ++ slice m (a + v.length) (n - v.length) := by
  obtain ⟨k, rfl⟩ : ∃ k, n = v.length + k := ⟨n - v.length, by omega⟩
  have e := slice_add m a v.length k
  rw [e, Nat.add_sub_cancel_left]
  rw [show slice m a v.length = v from h]

theorem cPrefix_append {v l : List UInt8} (h : (0 : UInt8) ∈ v) : cPrefix (v ++ l) = cPrefix v := by
  induction v with
  | nil => cases h
  | cons a v ih =>
    unfold cPrefix at *
    rw [List.cons_append, List.takeWhile_cons, List.takeWhile_cons]
    by_cases ha : a = 0
    · subst ha; simp
    · rw [if_pos (by simpa using ha), if_pos (by simpa using ha), ih (by rcases List.mem_cons.1 h with h | h; exact absurd h.symm ha; exact h)]

theorem ofU_inj {b x y : Nat} (hb : 0 < b) (hx : x < 2 ^ b) (hy : y < 2 ^ b) (h : ofU b x = ofU b y) : x = y := by
  unfold ofU at h
  have : (2 : Int) ^ b = ((2 ^ b : Nat) : Int) := by simp
  split at h <;> split at h <;> omega

theorem rdN_inj {v w : List UInt8} (hl : v.length = w.length) (h : rdN v = rdN w) : v = w := by
  rw [← leN_rdN v, ← leN_rdN w, h, hl]

theorem sgn_zero (a b : Int) : (sgnCmp (decide (a < b)) (decide (a > b)) = 0) ↔ a = b := (tells_sgn a b).2.1

theorem cmpAs_eq (rd) (k : Nat) (A B : List UInt8) : (cmpAs rd k A B k k = 0) ↔ rd A = rd B := by
  unfold cmpAs
  rw [if_neg (by simp)]
  exact sgn_zero _ _

/-- the comparison is zero exactly for the same value -/
theorem compare_same (fcmp) {t : XBT} {v w l : List UInt8} (hv : FitsType t v) (hw : FitsType t w) {n : Nat} (hn : t = STRING ∨ n = w.length) :
    (compareV fcmp t (v ++ l) (size2 t 0).toNat t w n = 0) ↔ sameValue t v w = true := by
  rcases hv with ⟨rfl, hv⟩ | hv
  · have hw : (0 : UInt8) ∈ w := by rcases hw with ⟨-, h⟩ | h; exact h; cases h
    unfold compareV sameValue
    rw [if_pos rfl, if_pos rfl]
    show strcmpB _ _ = 0 ↔ _
    rw [cPrefix_append hv]
    refine (strcmpB_tells _ _ (cPrefix_noNul _) (cPrefix_noNul _)).2.1.trans ?_
    simp [cPrefix]
  · rcases hw with ⟨rfl, -⟩ | hw
    · cases hv
    have hlen : v.length = w.length := by rw [hv] at hw; injection hw
    have i4 : v.length = 4 → (rdI32 (v ++ l) = rdI32 w ↔ v = w) := fun e => by
      refine ⟨fun h => ?_, fun h => by subst h; unfold rdI32; rw [List.take_append_of_le_length (by omega)]⟩
      unfold rdI32 at h
      rw [List.take_append_of_le_length (by omega), List.take_of_length_le (by omega), List.take_of_length_le (by omega)] at h
      have l1 := rdN_lt v; have l2 := rdN_lt w
      rw [← hlen] at l2; rw [e] at l1 l2
      exact rdN_inj hlen (ofU_inj (by decide) (by simpa using l1) (by simpa using l2) h)
    have i8 : v.length = 8 → (rdI64 (v ++ l) = rdI64 w ↔ v = w) := fun e => by
      refine ⟨fun h => ?_, fun h => by subst h; unfold rdI64; rw [List.take_append_of_le_length (by omega)]⟩
      unfold rdI64 at h
      rw [List.take_append_of_le_length (by omega), List.take_of_length_le (by omega), List.take_of_length_le (by omega)] at h
      have l1 := rdN_lt v; have l2 := rdN_lt w
      rw [← hlen] at l2; rw [e] at l1 l2
      exact rdN_inj hlen (ofU_inj (by decide) (by simpa using l1) (by simpa using l2) h)
    have u4 : v.length = 4 → ((rdU32 (v ++ l) : Int) = rdU32 w ↔ v = w) := fun e => by
      refine ⟨fun h => ?_, fun h => by subst h; unfold rdU32; rw [List.take_append_of_le_length (by omega)]⟩
      unfold rdU32 at h
      rw [List.take_append_of_le_length (by omega), List.take_of_length_le (by omega), List.take_of_length_le (by omega)] at h
      exact rdN_inj hlen (by omega)
    have u8 : v.length = 8 → ((rdU64 (v ++ l) : Int) = rdU64 w ↔ v = w) := fun e => by
      refine ⟨fun h => ?_, fun h => by subst h; unfold rdU64; rw [List.take_append_of_le_length (by omega)]⟩
      unfold rdU64 at h
      rw [List.take_append_of_le_length (by omega), List.take_of_length_le (by omega), List.take_of_length_le (by omega)] at h
      exact rdN_inj hlen (by omega)
    have mm : ∀ k, v.length = k → (memcmpB ((v ++ l).take k) (w.take k) = 0 ↔ v = w) := fun k e => by
      rw [List.take_append_of_le_length (by omega), List.take_of_length_le (by omega), List.take_of_length_le (by omega)]
      exact (memcmpB_tells v w hlen).2.1
    have hts : t ≠ STRING := fun h => by subst h; cases hv
    have hn : n = w.length := hn.resolve_left hts
    subst hn
    rw [← hlen]
    have hsv : (sameValue t v w = true) ↔ v = w := by unfold sameValue; rw [if_neg hts]; simp
    rw [hsv]
    unfold compareV
    rw [if_pos rfl]
    cases t <;> first
      | (simp [searchSize] at hv; done)
      | (have e : v.length = 4 := by simpa [searchSize] using hv.symm
         rw [e]
         first
           | (show cmpAs _ 4 _ _ 4 4 = 0 ↔ _; rw [cmpAs_eq]; exact i4 e)
           | (show cmpAs _ 4 _ _ 4 4 = 0 ↔ _; rw [cmpAs_eq]; exact u4 e)
           | (show (if _ = _ then memcmpB _ _ else _) = 0 ↔ _; rw [if_pos (by rfl)]; exact mm 4 e))
      | (have e : v.length = 8 := by simpa [searchSize] using hv.symm
         rw [e]
         first
           | (show cmpAs _ 8 _ _ 8 8 = 0 ↔ _; rw [cmpAs_eq]; exact i8 e)
           | (show cmpAs _ 8 _ _ 8 8 = 0 ↔ _; rw [cmpAs_eq]; exact u8 e))
      | (have e : v.length = 16 := by simpa [searchSize] using hv.symm
         rw [e]
         show (if _ = _ then memcmpB _ _ else _) = 0 ↔ _
         rw [if_pos (by rfl)]; exact mm 16 e)

/-- what the search may rely on: the attributes with the identification looked for have values of the type looked for -/
def OfType (D : Doc) (p : Nat) (tag id : Int) (t : XBT) : Prop :=
  ∀ c ∈ D.forest.at' (.kids p), D.id c = tag → ∀ a ∈ D.forest.at' (.attrs c), D.id a = id → D.type a = t ∧ FitsType t (D.val a)

theorem attrEquals_spec (fcmp) {P : Pool} {e : Nat} {id : Int} {t : XBT} {v w : List UInt8} (h : ElemAt P e id t v) (hs : P.alloc ≤ P.fileSize) (hv : FitsType t v) (hw : FitsType t w) {n : Nat}
    (hn : t = STRING ∨ n = w.length) : P.attrEquals fcmp e t w n = .ok (sameValue t v w) := by
  have hhi := h.hi
  unfold Pool.attrEquals
  rw [h.eType hs, Out.ok_bind, ofCode_code]
  simp only
  have hpos : ¬ size2 t 0 < 0 := by
    rcases hv with ⟨rfl, -⟩ | hv
    · decide
    · cases t <;> first | (simp [searchSize] at hv; done) | decide
  rw [if_neg hpos]
  unfold Pool.behind
  rw [show ((e : Int)).toNat + 24 = e + 24 by simp, slice_has h.val (by omega)]
  have := compare_same fcmp (l := slice P.mem (e + 24 + v.length) (P.fileSize - (e + 24) - v.length)) hv hw hn
  cases hsv : sameValue t v w with
  | true => rw [hsv] at this; rw [this.2 rfl]; rfl
  | false =>
    rw [hsv] at this
    have hne : compareV fcmp t (v ++ slice P.mem (e + 24 + v.length) (P.fileSize - (e + 24) - v.length)) (size2 t 0).toNat t w n ≠ 0 := fun h => by simpa using this.1 h
    simp [hne]

theorem hasParamLoop_from (fcmp) {P : Pool} {D : Doc} {els V fl} (k : Keeps P D els V fl) {p : Nat} (hp : p ∈ els) {c : Nat} (id : Int) {t : XBT} {w : List UInt8} {n : Nat} (hw : FitsType t w)
    (hn : t = STRING ∨ n = w.length) : ∀ (l : List Nat) (a fuel : Nat),
    Links (V 8) (V 12) (a :: l ++ [c]) → (∀ x ∈ a :: l, x ∈ els) → (∀ x ∈ a :: l, D.id x = id → D.type x = t ∧ FitsType t (D.val x)) → c ∉ l → l.length < fuel →
    P.hasParamLoop fcmp p c id t w n fuel a = .ok ((a :: l).any fun x => D.id x = id && sameValue t (D.val x) w)
  | l, a, fuel, hL, hm, ht, hcl, hf => by
    obtain ⟨m, rfl⟩ : ∃ m, fuel = m + 1 := ⟨fuel - 1, by omega⟩
    have ha := hm a (by simp)
    have hsz := k.sees.size
    unfold Pool.hasParamLoop
    rw [(k.elem a ha).eId hsz.1, Out.ok_bind, List.any_cons]
    have key : andThen (D.id a = id) (P.attrEquals fcmp a t w n) = .ok (decide (D.id a = id) && sameValue t (D.val a) w) := by
      by_cases hi : D.id a = id
      · obtain ⟨e1, e2⟩ := ht a (by simp) hi
        have he := k.elem a ha
        rw [e1] at he
        unfold andThen; rw [if_pos (by simpa using hi), attrEquals_spec fcmp he hsz.1 e2 hw hn]; simp [hi]
      · unfold andThen; rw [if_neg (by simpa using hi)]; simp [hi]
    rw [key, Out.ok_bind]
    cases hq : (decide (D.id a = id) && sameValue t (D.val a) w) with
    | true => rfl
    | false =>
      simp only [Bool.false_or]
      rw [if_neg (by simp), k.sees.nx ha, Out.ok_bind]
      cases l with
      | nil =>
        have hnx : V 8 a = c := by simp [Links] at hL; exact hL.1
        rw [if_pos (by rw [hnx])]
        rfl
      | cons b l =>
        simp only [List.cons_append, Links] at hL
        have hbc : b ≠ c := fun h' => hcl (by simp [h'])
        have ih := hasParamLoop_from fcmp k hp id hw hn l b m hL.2 (fun x hx => hm x (List.mem_cons_of_mem _ hx)) (fun x hx => ht x (List.mem_cons_of_mem _ hx)) (fun h' => hcl (List.mem_cons_of_mem _ h')) (by simp at hf; omega)
        rw [hL.1.1, if_neg (by omega), k.sees.bwe hp, Out.ok_bind, ih]

theorem hasParam_spec (fcmp) {P : Pool} {D : Doc} {els V fl} (k : Keeps P D els V fl) {p c : Nat} (hp : p ∈ els) (hc : c ∈ els) (id : Int) {t : XBT} {w : List UInt8} {n : Nat} (hw : FitsType t w)
    (hn : t = STRING ∨ n = w.length) (ht : ∀ x ∈ D.forest.at' (.attrs c), D.id x = id → D.type x = t ∧ FitsType t (D.val x)) {fuel : Nat} (hfuel : (D.forest.at' (.attrs c)).length < fuel) :
    P.hasParam fcmp p c id t w n fuel = .ok (D.hasAttr c id t w) := by
  have hh : V 20 c = _ := k.lists.head c hc 20 (Or.inr rfl)
  have hr := k.lists.ring (.attrs c)
  have hnd := k.lists.nodup (.attrs c)
  have hm : ∀ x ∈ D.forest.at' (.attrs c), x ∈ els := fun x hx => (k.lists.mem x).1 ⟨_, hx⟩
  unfold Pool.hasParam Pool.eAttr Doc.hasAttr
  rw [k.sees.get (k := 20) hc (by unfold IsPtr; omega) ((c : Int) + 20) rfl, Out.ok_bind]
  rw [show lst 20 c = .attrs c from rfl] at hh
  cases hl : D.forest.at' (.attrs c) with
  | nil => rw [hl] at hh; replace hh : V 20 c = 0 := hh; rw [hh, if_pos (by simp)]; rfl
  | cons a l =>
    rw [hl] at hh hr hnd hm hfuel ht
    have ha := hm a (by simp)
    have ha0 := k.sees.lt ha
    have hh : V 20 c = a := hh
    rw [hh, if_neg (by omega), k.sees.bwe hp, Out.ok_bind]
    exact hasParamLoop_from fcmp k hp id hw hn l a fuel hr hm ht (List.nodup_cons.1 hnd).1 (by simp at hfuel; omega)

theorem findByLoop_from (fcmp) {P : Pool} {D : Doc} {els V fl} (k : Keeps P D els V fl) {p : Nat} (hp : p ∈ els) {c : Nat} (tag id : Int) {t : XBT} {w : List UInt8} {n m : Nat} (hw : FitsType t w)
    (hn : t = STRING ∨ n = w.length) : ∀ (l : List Nat) (a fuel : Nat),
    Links (V 8) (V 12) (a :: l ++ [c]) → (∀ x ∈ a :: l, x ∈ els) →
    (∀ x ∈ a :: l, D.id x = tag → (D.forest.at' (.attrs x)).length < m ∧ ∀ y ∈ D.forest.at' (.attrs x), D.id y = id → D.type y = t ∧ FitsType t (D.val y)) → c ∉ l → l.length < fuel →
    P.findByLoop fcmp p c tag id t w n m fuel a = .ok (((a :: l).find? fun x => D.id x = tag && D.hasAttr x id t w).map Int.ofNat)
  | l, a, fuel, hL, hm, ht, hcl, hf => by
    obtain ⟨q, rfl⟩ : ∃ q, fuel = q + 1 := ⟨fuel - 1, by omega⟩
    have ha := hm a (by simp)
    have hsz := k.sees.size
    unfold Pool.findByLoop
    rw [(k.elem a ha).eId hsz.1, Out.ok_bind, List.find?_cons]
    have key : andThen (D.id a = tag) (P.hasParam fcmp p a id t w n m) = .ok (decide (D.id a = tag) && D.hasAttr a id t w) := by
      by_cases hi : D.id a = tag
      · obtain ⟨e1, e2⟩ := ht a (by simp) hi
        unfold andThen; rw [if_pos (by simpa using hi), hasParam_spec fcmp k hp ha id hw hn e2 e1]; simp [hi]
      · unfold andThen; rw [if_neg (by simpa using hi)]; simp [hi]
    rw [key, Out.ok_bind]
    cases hq : (decide (D.id a = tag) && D.hasAttr a id t w) with
    | true => rfl
    | false =>
      simp only
      rw [if_neg (by simp), k.sees.nx ha, Out.ok_bind]
      cases l with
      | nil =>
        have hnx : V 8 a = c := by simp [Links] at hL; exact hL.1
        rw [if_pos (by rw [hnx])]
        rfl
      | cons b l =>
        simp only [List.cons_append, Links] at hL
        have hbc : b ≠ c := fun h' => hcl (by simp [h'])
        have ih := findByLoop_from fcmp k hp tag id hw hn l b q hL.2 (fun x hx => hm x (List.mem_cons_of_mem _ hx)) (fun x hx => ht x (List.mem_cons_of_mem _ hx)) (fun h' => hcl (List.mem_cons_of_mem _ h')) (by simp at hf; omega)
        rw [hL.1.1, if_neg (by omega), k.sees.bwe hp, Out.ok_bind, ih]

/-- C52 for texts, integers of all sizes, dates and times, addresses and GUIDs (partial: not for the other types, see below, and when the attributes with that identification have the type of the
value looked for, as those written by the `attr` functions have): in every document that any history of calls can lead to, the search for a value of a type returns the first child with the tag and
an attribute of that value, in document order, and nothing when there is none. `fuel` bounds the number of steps of each loop. -/
theorem C52_found_partial (fcmp : Nat → List UInt8 → List UInt8 → Int) (E : Env) (maxSize : Nat) (h1 : 0x4000 ≤ maxSize) (h2 : maxSize < 2147483648) (P : Pool) (D : Doc) (h : Sess E maxSize P D) (p : Nat)
    (hp : D.forest.Elem p) (tag id : Int) (t : XBT) (w : List UInt8) (hw : FitsType t w) (hty : OfType D p tag id t) (fuel : Nat) (hk : (D.forest.at' (.kids p)).length < fuel)
    (ha : ∀ c ∈ D.forest.at' (.kids p), (D.forest.at' (.attrs c)).length < fuel) :
    P.findByParam fcmp p tag id t w w.length fuel = .ok ((D.childWith p tag id t w).map Int.ofNat) := by
  obtain ⟨els, V, fl, k⟩ := sess_keeps h1 h2 h
  have hp := (k.lists.mem p).1 hp
  have hh : V 16 p = _ := k.lists.head p hp 16 (Or.inl rfl)
  have hr := k.lists.ring (.kids p)
  have hnd := k.lists.nodup (.kids p)
  have hm : ∀ x ∈ D.forest.at' (.kids p), x ∈ els := fun x hx => (k.lists.mem x).1 ⟨_, hx⟩
  unfold Pool.findByParam Pool.eChild Doc.childWith
  rw [k.sees.get (k := 16) hp (by unfold IsPtr; omega) ((p : Int) + 16) rfl, Out.ok_bind]
  rw [show lst 16 p = .kids p from rfl] at hh
  have hty' : ∀ x ∈ D.forest.at' (.kids p), D.id x = tag → (D.forest.at' (.attrs x)).length < fuel ∧ ∀ y ∈ D.forest.at' (.attrs x), D.id y = id → D.type y = t ∧ FitsType t (D.val y) :=
    fun x hx e => ⟨ha x hx, hty x hx e⟩
  cases hl : D.forest.at' (.kids p) with
  | nil => rw [hl] at hh; replace hh : V 16 p = 0 := hh; rw [hh, if_pos (by simp)]; rfl
  | cons a l =>
    rw [hl] at hh hr hnd hm hk hty'
    have ha := hm a (by simp)
    have ha0 := k.sees.lt ha
    have hh : V 16 p = a := hh
    rw [hh, if_neg (by omega), k.sees.bwe hp, Out.ok_bind]
    exact findByLoop_from fcmp k hp tag id hw (Or.inr rfl) l a fuel hr hm hty' (List.nodup_cons.1 hnd).1 (by simp at hk; omega)

/-! ### a document with two children, one with a number, one with a number and a digest -/

def store1 : Pool := poolOf ((Pool.empty 0x8000).make demoEnv 0 NULL 0 (tagFlag true) (sizeField NULL 0).length [])
def store2 : Pool := poolOf (store1.make demoEnv 0 NULL 0 (tagFlag true) (sizeField NULL 0).length [])
def store3 : Pool := poolOf (store2.make demoEnv 0 NULL 0 (tagFlag true) (sizeField NULL 0).length [])
def store4 : Pool := poolOf (store3.make demoEnv (-5) INT32 0 (tagFlag false) (sizeField INT32 0).length (le32 5))
def store5 : Pool := poolOf (store4.make demoEnv (-5) INT32 0 (tagFlag false) (sizeField INT32 0).length (le32 7))
def store6 : Pool := poolOf (store5.make demoEnv (-3) SHA1 0 (tagFlag false) (sizeField SHA1 0).length (List.replicate 24 3))
def store7 : Pool := poolOf (store6.make demoEnv 2 HEX 2 (tagFlag false) (sizeField HEX 0).length [8, 9])
def store8 : Pool := poolOf' (store7.add 116 (some 164))
def store9 : Pool := poolOf' (store8.add 140 (some 192))
def store10 : Pool := poolOf' (store9.add 140 (some 220))
def store11 : Pool := poolOf' (store10.add 140 (some 268))
def store12 : Pool := poolOf' (store11.add 92 (some 116))
def store13 : Pool := poolOf' (store12.add 92 (some 140))

set_option maxHeartbeats 2000000 in
theorem store_sess : ∃ D, Sess demoEnv 0x8000 store13 D ∧ D.forest.at' (.loose 0) = [92] ∧ D.forest.at' (.kids 92) = [116, 140] ∧ D.forest.at' (.attrs 116) = [164] ∧
    D.forest.at' (.attrs 140) = [192, 220, 268] ∧ D.id 116 = 0 ∧ D.id 140 = 0 ∧ D.id 164 = -5 ∧ D.id 192 = -5 ∧ D.id 220 = -3 ∧ D.id 268 = 2 ∧ D.type 164 = INT32 ∧ D.type 192 = INT32 ∧ D.type 220 = SHA1 ∧
    D.type 268 = HEX ∧ D.val 164 = le32 5 ∧ D.val 192 = le32 7 ∧ D.val 220 = List.replicate 24 3 ∧ D.val 268 = le32 2 ++ [8, 9] := by
  have r1 : (Pool.empty 0x8000).make demoEnv 0 NULL 0 (tagFlag true) (sizeField NULL 0).length [] = .ok (store1, some 92) := poolOf_eq (by decide +kernel)
  have r2 : store1.make demoEnv 0 NULL 0 (tagFlag true) (sizeField NULL 0).length [] = .ok (store2, some 116) := poolOf_eq (by decide +kernel)
  have r3 : store2.make demoEnv 0 NULL 0 (tagFlag true) (sizeField NULL 0).length [] = .ok (store3, some 140) := poolOf_eq (by decide +kernel)
  have r4 : store3.make demoEnv (-5) INT32 0 (tagFlag false) (sizeField INT32 0).length (le32 5) = .ok (store4, some 164) := poolOf_eq (by decide +kernel)
  have r5 : store4.make demoEnv (-5) INT32 0 (tagFlag false) (sizeField INT32 0).length (le32 7) = .ok (store5, some 192) := poolOf_eq (by decide +kernel)
  have r6 : store5.make demoEnv (-3) SHA1 0 (tagFlag false) (sizeField SHA1 0).length (List.replicate 24 3) = .ok (store6, some 220) := poolOf_eq (by decide +kernel)
  have r7 : store6.make demoEnv 2 HEX 2 (tagFlag false) (sizeField HEX 0).length [8, 9] = .ok (store7, some 268) := poolOf_eq (by decide +kernel)
  have r8 : (ListOp.add 116 164).run store7 = .ok store8 := poolOf'_eq (by decide +kernel)
  have r9 : (ListOp.add 140 192).run store8 = .ok store9 := poolOf'_eq (by decide +kernel)
  have r10 : (ListOp.add 140 220).run store9 = .ok store10 := poolOf'_eq (by decide +kernel)
  have r11 : (ListOp.add 140 268).run store10 = .ok store11 := poolOf'_eq (by decide +kernel)
  have r12 : (ListOp.add 92 116).run store11 = .ok store12 := poolOf'_eq (by decide +kernel)
  have r13 : (ListOp.add 92 140).run store12 = .ok store13 := poolOf'_eq (by decide +kernel)
  have s1 := Sess.made (k := 0) Sess.start ⟨by decide, by decide⟩ (by decide) r1 rfl
  have s2 := Sess.made (k := 1) s1 ⟨by decide, by decide⟩ (by decide) r2 rfl
  have s3 := Sess.made (k := 2) s2 ⟨by decide, by decide⟩ (by decide) r3 rfl
  have s4 := Sess.made (k := 3) s3 ⟨by decide, by decide⟩ (by decide) r4 rfl
  have s5 := Sess.made (k := 4) s4 ⟨by decide, by decide⟩ (by decide) r5 rfl
  have s6 := Sess.made (k := 5) s5 ⟨by decide, by decide⟩ (by decide) r6 rfl
  have s7 := Sess.made (k := 6) s6 ⟨by decide, by decide⟩ (by decide) r7 rfl
  have s8 := Sess.step s7 (Step.add (k := 3) ⟨.loose 1, by decide⟩ (by decide)) r8
  have s9 := Sess.step s8 (Step.add (k := 4) ⟨.loose 2, by decide⟩ (by decide)) r9
  have s10 := Sess.step s9 (Step.add (k := 5) ⟨.loose 2, by decide⟩ (by decide)) r10
  have s11 := Sess.step s10 (Step.add (k := 6) ⟨.loose 2, by decide⟩ (by decide)) r11
  have s12 := Sess.step s11 (Step.add (k := 1) ⟨.loose 0, by decide⟩ (by decide)) r12
  have s13 := Sess.step s12 (Step.add (k := 2) ⟨.loose 0, by decide⟩ (by decide)) r13
  exact ⟨_, s13, by decide, by decide, by decide, by decide, by decide, by decide, by decide, by decide, by decide, by decide, by decide, by decide, by decide, by decide, by decide, by decide, by decide, by decide⟩

/-- the hypotheses of `C52_found_partial` are met: the second child has the value 7, the first 5, none has 6 -/
example (fcmp : Nat → List UInt8 → List UInt8 → Int) : ∃ D, Sess demoEnv 0x8000 store13 D ∧ D.forest.Elem 92 ∧ OfType D 92 0 (-5) INT32 ∧
    store13.findByParam fcmp 92 0 (-5) INT32 (le32 7) 4 9 = .ok (some 140) ∧ store13.findByParam fcmp 92 0 (-5) INT32 (le32 5) 4 9 = .ok (some 116) ∧
    store13.findByParam fcmp 92 0 (-5) INT32 (le32 6) 4 9 = .ok none := by
  obtain ⟨D, h, f0, f1, f2, f3, i1, i2, i3, i4, i5, i6, t1, t2, t3, t4, v1, v2, v3, v4⟩ := store_sess
  have hE : D.forest.Elem 92 := ⟨.loose 0, by rw [f0]; simp⟩
  have hO : OfType D 92 0 (-5) INT32 := by
    intro c hc _ a ha hi
    rw [f1] at hc
    simp only [List.mem_cons, List.not_mem_nil, or_false] at hc
    rcases hc with rfl | rfl
    · rw [f2] at ha
      simp only [List.mem_cons, List.not_mem_nil, or_false] at ha
      subst ha
      exact ⟨t1, Or.inr (by rw [v1]; rfl)⟩
    · rw [f3] at ha
      simp only [List.mem_cons, List.not_mem_nil, or_false] at ha
      rcases ha with rfl | rfl | rfl
      · exact ⟨t2, Or.inr (by rw [v2]; rfl)⟩
      · rw [i5] at hi; exact absurd hi (by decide)
      · rw [i6] at hi; exact absurd hi (by decide)
  have key := fun w hw => C52_found_partial fcmp demoEnv 0x8000 (by decide) (by decide) store13 D h 92 hE 0 (-5) INT32 w hw hO 9 (by rw [f1]; decide)
    (by rw [f1]; intro c hc; simp only [List.mem_cons, List.not_mem_nil, or_false] at hc; rcases hc with rfl | rfl; rw [f2]; decide; rw [f3]; decide)
  have hcw : ∀ w, D.childWith 92 0 (-5) INT32 w = if le32 5 = w then some 116 else if le32 7 = w then some 140 else none := by
    intro w
    unfold Doc.childWith Doc.hasAttr
    rw [f1]
    simp only [List.find?_cons, f2, f3, i1, i2, List.any_cons, List.any_nil, i3, i4, i5, i6, v1, v2, v3, v4, sameValue]
    by_cases a1 : le32 5 = w
    · simp [a1]
    · by_cases a2 : le32 7 = w
      · subst a2; simp [show ¬ le32 5 = le32 7 by decide, show (le32 5 == le32 7) = false by decide]
      · simp [a1, a2, show (le32 5 == w) = false by simpa using a1, show (le32 7 == w) = false by simpa using a2]
  refine ⟨D, h, hE, hO, ?_, ?_, ?_⟩
  · have := key (le32 7) (Or.inr rfl); rw [hcw] at this; exact this
  · have := key (le32 5) (Or.inr rfl); rw [hcw] at this; exact this
  · have := key (le32 6) (Or.inr rfl); rw [hcw] at this; exact this

theorem compareV_irrel (t : XBT) {vt : XBT} (A B : List UInt8) (n m : Nat) (h1 : vt ≠ FLOAT) (h2 : vt ≠ DOUBLE) (f g) : compareV f t A n vt B m = compareV g t A n vt B m := by
  unfold compareV
  by_cases h : t = vt
  · subst h
    rw [if_pos rfl, if_pos rfl]
    cases t <;> first | rfl | contradiction
  · rw [if_neg h, if_neg h]

theorem hasParamLoop_irrel (P : Pool) (p first id : Int) {vt : XBT} (w : List UInt8) (n : Nat) (h1 : vt ≠ FLOAT) (h2 : vt ≠ DOUBLE) (f g) (fuel : Nat) :
    ∀ a, P.hasParamLoop f p first id vt w n fuel a = P.hasParamLoop g p first id vt w n fuel a := by
  induction fuel with
  | zero => intro a; rfl
  | succ m ih =>
    intro a
    have e : P.attrEquals f a vt w n = P.attrEquals g a vt w n := by unfold Pool.attrEquals; simp only [compareV_irrel _ _ _ _ _ h1 h2 f g]
    unfold Pool.hasParamLoop
    simp only [e, ih]

theorem findByLoop_irrel (P : Pool) (p first tag id : Int) {vt : XBT} (w : List UInt8) (n m : Nat) (h1 : vt ≠ FLOAT) (h2 : vt ≠ DOUBLE) (f g) (fuel : Nat) :
    ∀ a, P.findByLoop f p first tag id vt w n m fuel a = P.findByLoop g p first tag id vt w n m fuel a := by
  induction fuel with
  | zero => intro a; rfl
  | succ q ih =>
    intro a
    have e : P.hasParam f p a id vt w n m = P.hasParam g p a id vt w n m := by unfold Pool.hasParam; simp only [hasParamLoop_irrel P p _ id w n h1 h2 f g]
    unfold Pool.findByLoop
    simp only [e, ih]

/-- the comparison of floating point numbers only matters when looking for them -/
theorem findByParam_irrel (P : Pool) (p tag id : Int) {vt : XBT} (w : List UInt8) (n : Nat) {fuel : Nat} (h1 : vt ≠ FLOAT) (h2 : vt ≠ DOUBLE) (f g) :
    P.findByParam f p tag id vt w n fuel = P.findByParam g p tag id vt w n fuel := by
  unfold Pool.findByParam
  simp only [findByLoop_irrel P p _ tag id w n fuel h1 h2 f g]

/-- C52 is false for digests: a child with the digest looked for is not found, because its 20 bytes are compared with the 24 that are stored. -/
theorem C52_sha1_false : (∃ D, Sess demoEnv 0x8000 store13 D ∧ D.forest.at' (.kids 92) = [116, 140] ∧ D.forest.at' (.attrs 140) = [192, 220, 268] ∧ D.id 220 = -3 ∧ D.type 220 = SHA1 ∧
      readable SHA1 (D.val 220) = List.replicate 20 3) ∧
    ∀ fcmp, store13.findByParam fcmp 92 0 (-3) SHA1 (List.replicate 20 3) 20 9 = .ok none := by
  refine ⟨?_, fun fcmp => ?_⟩
  · obtain ⟨D, h, f0, f1, f2, f3, i1, i2, i3, i4, i5, i6, t1, t2, t3, t4, v1, v2, v3, v4⟩ := store_sess
    exact ⟨D, h, f1, f3, i5, t3, by rw [v3]; rfl⟩
  · rw [findByParam_irrel _ _ _ _ _ _ (by decide) (by decide) fcmp (fun _ _ _ => 0)]; decide +kernel

/-- C52 is false for blocks: a child with the block looked for is not found, while it is found when looking for its length. -/
theorem C52_hex_false : (∃ D, Sess demoEnv 0x8000 store13 D ∧ D.forest.at' (.kids 92) = [116, 140] ∧ D.forest.at' (.attrs 140) = [192, 220, 268] ∧ D.id 268 = 2 ∧ D.type 268 = HEX ∧
      D.val 268 = le32 2 ++ [8, 9]) ∧
    (∀ fcmp, store13.findByParam fcmp 92 0 2 HEX (le32 2 ++ [8, 9]) 6 9 = .ok none) ∧ (∀ fcmp, store13.findByParam fcmp 92 0 2 HEX [8, 9] 2 9 = .ok none) ∧
    ∀ fcmp, store13.findByParam fcmp 92 0 2 HEX (le32 2) 4 9 = .ok (some 140) := by
  refine ⟨?_, fun fcmp => ?_, fun fcmp => ?_, fun fcmp => ?_⟩
  · obtain ⟨D, h, f0, f1, f2, f3, i1, i2, i3, i4, i5, i6, t1, t2, t3, t4, v1, v2, v3, v4⟩ := store_sess
    exact ⟨D, h, f1, f3, i6, t4, v4⟩
  · rw [findByParam_irrel _ _ _ _ _ _ (by decide) (by decide) fcmp (fun _ _ _ => 0)]; decide +kernel
  · rw [findByParam_irrel _ _ _ _ _ _ (by decide) (by decide) fcmp (fun _ _ _ => 0)]; decide +kernel
  · rw [findByParam_irrel _ _ _ _ _ _ (by decide) (by decide) fcmp (fun _ _ _ => 0)]; decide +kernel

end BX
