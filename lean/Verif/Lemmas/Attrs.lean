import Verif.Lemmas.Session
import Verif.Spec.Attrs
/-
Attributes of a writable document.
-/
namespace BX
open XBT Spec

/-- only finitely many circles are in use -/
theorem sess_loose {E : Env} {maxSize : Nat} {P : Pool} {D : Doc} (h : Sess E maxSize P D) : ∃ N, ∀ k, N ≤ k → D.forest.at' (.loose k) = [] := by
  induction h with
  | start => exact ⟨0, fun _ _ => rfl⟩
  | @made _ _ _ _ _ _ _ _ _ k _ _ _ _ _ ih =>
    obtain ⟨N, hN⟩ := ih
    refine ⟨max N (k + 1), fun j hj => ?_⟩
    simp only [Doc.plus, put_at]
    rw [if_neg (by simp only [Place.loose.injEq]; omega)]
    exact hN j (by omega)
  | @copied _ _ _ _ _ _ _ _ k _ _ _ _ ih =>
    obtain ⟨N, hN⟩ := ih
    refine ⟨max N (k + 1), fun j hj => ?_⟩
    simp only [Doc.plus, put_at]
    rw [if_neg (by simp only [Place.loose.injEq]; omega)]
    exact hN j (by omega)
  | step _ hs _ ih =>
    obtain ⟨N, hN⟩ := ih
    cases hs with
    | @add p t k _ _ =>
      refine ⟨max N (k + 1), fun j hj => ?_⟩
      simp only [put_at]
      rw [if_neg (by simp only [Place.loose.injEq]; omega), if_neg (by unfold Forest.home; split <;> simp)]
      exact hN j (by omega)
    | @join a b j k _ _ _ _ =>
      refine ⟨max N (max (j + 1) (k + 1)), fun i hi => ?_⟩
      simp only [put_at]
      rw [if_neg (by simp only [Place.loose.injEq]; omega), if_neg (by simp only [Place.loose.injEq]; omega)]
      exact hN i (by omega)
    | @splice p a b k _ _ _ =>
      refine ⟨max N (k + 1), fun j hj => ?_⟩
      simp only [put_at]
      rw [if_neg (by simp only [Place.loose.injEq]; omega), if_neg (by unfold Forest.home; split <;> simp)]
      exact hN j (by omega)
    | @remove p t k _ _ =>
      refine ⟨max N (k + 1), fun j hj => ?_⟩
      simp only [put_at]
      rw [if_neg (by simp only [Place.loose.injEq]; omega), if_neg (by unfold Forest.home; split <;> simp)]
      exact hN j (by omega)
    | @replace p old new k _ _ _ _ =>
      refine ⟨max N (k + 1), fun j hj => ?_⟩
      simp only [put_at]
      rw [if_neg (by simp only [Place.loose.injEq]; omega), if_neg (by unfold Forest.home; split <;> simp)]
      exact hN j (by omega)
    | @cut e k _ _ =>
      refine ⟨max N (k + 1), fun j hj => ?_⟩
      simp only [put_at]
      rw [if_neg (by simp only [Place.loose.injEq]; omega), if_neg (by simp)]
      exact hN j (by omega)
    | @tie e k _ _ _ =>
      refine ⟨max N (k + 1), fun j hj => ?_⟩
      simp only [put_at]
      rw [if_neg (by simp only [Place.loose.injEq]; omega), if_neg (by simp)]
      exact hN j (by omega)
  | created => exact ⟨0, fun _ _ => rfl⟩
  | cleared => exact ⟨0, fun _ _ => rfl⟩
  | _ => assumption

/-- an attribute `o` is added to `p` -/
def Spec.Doc.withAttr (D : Doc) (p o : Nat) (id : Int) (t : XBT) (v : List UInt8) : Doc :=
  { D with forest := { at' := fun q => if q = .attrs p then D.forest.at' q ++ [o] else D.forest.at' q, tag := fun e => if e = o then false else D.forest.tag e }
           id := fun e => if e = o then id else D.id e, type := fun e => if e = o then t else D.type e, val := fun e => if e = o then v else D.val e }

/-- a detached attribute is added -/
theorem plus_add {E : Env} {maxSize : Nat} {P Q : Pool} {D : Doc} {p o k : Nat} {id : Int} {t : XBT} {v : List UInt8} (h : Sess E maxSize P (D.plus k o false id t v)) (hk : D.forest.at' (.loose k) = [])
    (hp : D.forest.Elem p) (ha : P.add p (some (o : Int)) = .ok Q) : Sess E maxSize Q (D.withAttr p o id t v) := by
  have hl : (D.plus k o false id t v).forest.at' (.loose k) = [o] := if_pos rfl
  have hp' : (D.plus k o false id t v).forest.Elem p := by
    obtain ⟨q, hq⟩ := hp
    refine ⟨q, ?_⟩
    have : (D.plus k o false id t v).forest.at' q = D.forest.at' q := by
      refine if_neg ?_
      rintro rfl
      rw [hk] at hq; cases hq
    rw [this]; exact hq
  have htag : (D.plus k o false id t v).forest.tag o = false := if_pos rfl
  have hhome : (D.plus k o false id t v).forest.home p o = .attrs p := by unfold Forest.home; rw [htag]; rfl
  have hst := Step.add (F := (D.plus k o false id t v).forest) (p := p) (t := o) (k := k) hp' (by rw [hl]; simp)
  have hs := Sess.step h hst ha
  have : D.withAttr p o id t v = { D.plus k o false id t v with forest := (((D.plus k o false id t v).forest.put ((D.plus k o false id t v).forest.home p o)
      ((D.plus k o false id t v).forest.at' ((D.plus k o false id t v).forest.home p o) ++ fromElem o ((D.plus k o false id t v).forest.at' (.loose k)))).put (.loose k) []) } := by
    rw [hhome, hl]
    unfold Doc.withAttr Doc.plus
    congr 1
    unfold Forest.put
    simp only [Forest.mk.injEq]
    refine ⟨funext fun q => ?_, trivial⟩
    by_cases h1 : q = .loose k
    · rw [if_pos h1, h1, if_neg (by simp)]; exact hk
    · rw [if_neg h1]
      by_cases h2 : q = .attrs p
      · rw [if_pos h2, if_pos h2, h2, if_neg (by simp)]
        simp [fromElem]
      · rw [if_neg h2, if_neg h2, if_neg h1]
  rw [this]; exact hs

theorem cPrefix_le (m : List UInt8) : (cPrefix m).length ≤ m.length := by
  unfold cPrefix; exact (List.takeWhile_prefix _).length_le

theorem cPrefix_noNul (m : List UInt8) : ∀ x ∈ cPrefix m, x ≠ 0 := by
  unfold cPrefix
  induction m with
  | nil => simp
  | cons a m ih =>
    intro x hx
    rw [List.takeWhile_cons] at hx
    split at hx
    · rename_i h
      rcases List.mem_cons.1 hx with rfl | hx
      · simpa using h
      · exact ih x hx
    · simp at hx

theorem takeWhile_prefix0 (m l : List UInt8) : ((cPrefix m ++ 0 :: l).takeWhile (· ≠ 0)) = cPrefix m := by
  rw [List.takeWhile_append_of_pos (fun x hx => by simpa using cPrefix_noNul m x hx)]
  simp

/-- the stored bytes of a write of an accepted type -/
theorem arg_value {w : AttrArg} {t : XBT} {bs : List UInt8} (ha : w.accepts t = true) (hn : w.nothing = false) (hb : w.bytes = .ok bs) (hs : w.size + 4 < 2147483648) :
    (sizeField t 0).length + bs.length = (size2 t w.size).toNat ∧ GoodVal t (sizeField t (size2 t w.size - 4) ++ bs) ∧
      readable t (sizeField t (size2 t w.size - 4) ++ bs) = argValue w := by
  cases w with
  | null =>
    simp only [AttrArg.accepts, beq_iff_eq] at ha; subst ha
    simp only [AttrArg.bytes, Out.ok.injEq] at hb; subst hb
    exact ⟨rfl, by simp [GoodVal, sizeField, isVarsize, is4, isINT32, fixedSize], rfl⟩
  | str v =>
    cases v with
    | none => cases hn
    | some m =>
      simp only [AttrArg.accepts, beq_iff_eq] at ha; subst ha
      simp only [AttrArg.bytes] at hb
      split at hb
      · cases hb
      · simp only [Out.ok.injEq] at hb; subst hb
        refine ⟨by simp [sizeField, isVarsize, size2, AttrArg.size], by simp [GoodVal], ?_⟩
        simp only [readable, sizeField, isVarsize, argValue]
        show ((cPrefix m ++ 0 :: []).takeWhile (· ≠ 0)) ++ [0] = cPrefix m ++ [0]
        rw [takeWhile_prefix0]
  | str2 v =>
    cases v with
    | none => cases hn
    | some m =>
      simp only [AttrArg.accepts, beq_iff_eq] at ha; subst ha
      simp only [AttrArg.bytes, Out.ok.injEq] at hb; subst hb
      have hle := cPrefix_le m
      refine ⟨by simp [sizeField, isVarsize, size2, AttrArg.size]; omega, by simp [GoodVal], ?_⟩
      simp only [readable, argValue]
      show ((cPrefix m ++ List.replicate (m.length - (cPrefix m).length) 0 ++ [0]).takeWhile (· ≠ 0)) ++ [0] = cPrefix m ++ [0]
      congr 1
      cases hj : m.length - (cPrefix m).length with
      | zero => simpa using takeWhile_prefix0 m []
      | succ j => rw [List.replicate_succ, List.append_assoc, List.cons_append]; exact takeWhile_prefix0 m _
  | hexStr v => cases ha
  | blob v n =>
    simp only [AttrArg.accepts, beq_iff_eq] at ha; subst ha
    have hbs : bs.length = n ∧ argValue (.blob v n) = le32 n ++ bs := by
      cases v with
      | none => simp only [AttrArg.bytes, Out.ok.injEq] at hb; subst hb; exact ⟨by simp, rfl⟩
      | some m =>
        simp only [AttrArg.bytes] at hb
        split at hb
        · cases hb
        · simp only [Out.ok.injEq] at hb; subst hb; exact ⟨by rw [List.length_take]; omega, rfl⟩
    obtain ⟨h1, h2⟩ := hbs
    have hsz : size2 BLOB (AttrArg.size (.blob v n)) - 4 = (bs.length : Int) := by simp [size2, AttrArg.size, h1]
    refine ⟨by simp [sizeField, isVarsize, size2, AttrArg.size, h1]; omega, ?_, ?_⟩
    · rw [hsz]; exact ⟨bs, rfl, by simp only [AttrArg.size] at hs; omega⟩
    · rw [hsz, h2, h1]; rfl
  | hex v n =>
    simp only [AttrArg.accepts, beq_iff_eq] at ha; subst ha
    have hbs : bs.length = n ∧ argValue (.hex v n) = le32 n ++ bs := by
      cases v with
      | none => simp only [AttrArg.bytes, Out.ok.injEq] at hb; subst hb; exact ⟨by simp, rfl⟩
      | some m =>
        simp only [AttrArg.bytes] at hb
        split at hb
        · cases hb
        · simp only [Out.ok.injEq] at hb; subst hb; exact ⟨by rw [List.length_take]; omega, rfl⟩
    obtain ⟨h1, h2⟩ := hbs
    have hsz : size2 HEX (AttrArg.size (.hex v n)) - 4 = (bs.length : Int) := by simp [size2, AttrArg.size, h1]
    refine ⟨by simp [sizeField, isVarsize, size2, AttrArg.size, h1]; omega, ?_, ?_⟩
    · rw [hsz]; exact ⟨bs, rfl, by simp only [AttrArg.size] at hs; omega⟩
    · rw [hsz, h2, h1]; rfl
  | int64 v =>
    simp only [AttrArg.bytes, Out.ok.injEq] at hb; subst hb
    simp only [AttrArg.accepts, is8, Bool.or_eq_true, beq_iff_eq] at ha
    rcases ha with ((rfl | rfl) | rfl) | rfl <;>
      exact ⟨by simp [sizeField, isVarsize, size2, AttrArg.size], by simp [GoodVal, sizeField, isVarsize, is4, isINT32, fixedSize], by simp [readable, sizeField, isVarsize, argValue]⟩
  | guid m =>
    simp only [AttrArg.accepts, beq_iff_eq] at ha; subst ha
    simp only [AttrArg.bytes] at hb
    split at hb
    · cases hb
    · rename_i hm
      simp only [Out.ok.injEq] at hb; subst hb
      refine ⟨by simp [sizeField, isVarsize, size2, AttrArg.size]; omega, ?_, by simp [readable, sizeField, isVarsize, argValue]⟩
      simp [GoodVal, sizeField, isVarsize, is4, isINT32, fixedSize]; omega
  | sha1 m =>
    simp only [AttrArg.accepts, beq_iff_eq] at ha; subst ha
    simp only [AttrArg.bytes] at hb
    split at hb
    · cases hb
    · rename_i hm
      simp only [Out.ok.injEq] at hb; subst hb
      refine ⟨by simp [sizeField, isVarsize, size2, AttrArg.size]; omega, ?_, by simp [readable, sizeField, isVarsize, argValue, List.take_take]⟩
      simp [GoodVal, sizeField, isVarsize]; omega
  | ipv4 => cases ha
  | ipv6 => cases ha
  | _ =>
    simp only [AttrArg.accepts, beq_iff_eq] at ha; subst ha
    simp only [AttrArg.bytes, Out.ok.injEq] at hb; subst hb
    exact ⟨by simp [sizeField, isVarsize, size2, AttrArg.size], by simp [GoodVal, sizeField, isVarsize, is4, isINT32, fixedSize], by simp [readable, sizeField, isVarsize, argValue]⟩

theorem arg_le {w : AttrArg} {t : XBT} (ha : w.accepts t = true) : w.size ≤ (size2 t w.size).toNat := by
  cases w with
  | str v => simp only [AttrArg.accepts, beq_iff_eq] at ha; subst ha; simp only [size2]; omega
  | str2 v => simp only [AttrArg.accepts, beq_iff_eq] at ha; subst ha; simp only [size2]; omega
  | blob v n => simp only [AttrArg.accepts, beq_iff_eq] at ha; subst ha; simp only [size2]; omega
  | hex v n => simp only [AttrArg.accepts, beq_iff_eq] at ha; subst ha; simp only [size2]; omega
  | _ => exact Nat.zero_le _

/-- the type of a symbol -/
theorem symType_spec {P : Pool} {D : Doc} {els V fl} (h : Keeps P D els V fl) {b : Bool} (hr : D.ready b = true) (hs : D.syms b ≠ []) (id : Int) :
    P.symType b id = .ok (some (D.symType b id)) := by
  have hi := h.rdy b hr hs
  unfold Doc.symType
  by_cases h0 : id < 0
  · rw [if_pos h0]
    unfold Pool.symType
    rw [if_neg hi, if_pos h0]; rfl
  · rw [if_neg h0]
    by_cases h1 : id < (D.syms b).length
    · have := symType_ok h.sees.ok h.sees.small (h.tabs b) hi (i := id.toNat) (by omega)
      rw [show ((id.toNat : Nat) : Int) = id by omega] at this
      rw [this, List.getElem?_eq_getElem (by omega)]; rfl
    · rw [(sym_out (h.tabs b) (by omega)).2, List.getElem?_eq_none (by omega)]; rfl

/-- one write -/
theorem attr_spec {E : Env} {maxSize : Nat} (h1 : 0x4000 ≤ maxSize) (h2 : maxSize < 2147483648) {P Q : Pool} {D : Doc} (h : Sess E maxSize P D) {p : Nat} (hp : D.forest.Elem p) {id : Int} (hid : Is16 id)
    {w : AttrArg} {r : Bool} (hr : D.ready false = true) (hs : D.syms false ≠ []) (hw : P.attr E p id w = .ok (Q, r)) :
    if r && !w.nothing then ∃ o v, ¬ D.forest.Elem o ∧ w.accepts (D.symType false id) = true ∧ GoodVal (D.symType false id) v ∧ readable (D.symType false id) v = argValue w ∧
      Sess E maxSize Q (D.withAttr p o id (D.symType false id) v) else Sess E maxSize Q D := by
  obtain ⟨els, V, fl, k⟩ := sess_keeps h1 h2 h
  unfold Pool.attr at hw
  cases hn : w.nothing with
  | true =>
    rw [hn, if_pos rfl] at hw
    simp only [Out.pure_eq, Out.ok.injEq, Prod.mk.injEq] at hw
    obtain ⟨rfl, rfl⟩ := hw
    simpa using h
  | false =>
    rw [hn, if_neg (by simp), symType_spec k hr hs id, Out.ok_bind] at hw
    simp only at hw
    split at hw
    · rename_i ha
      obtain ⟨bs, hb, hw⟩ := Out.bind_eq_ok hw
      obtain ⟨⟨P1, r1⟩, hm, hw⟩ := Out.bind_eq_ok hw
      have hoff : (if isVarsize (D.symType false id) = true then 4 else 0) = (sizeField (D.symType false id) 0).length := by
        unfold sizeField; split <;> simp
      rw [hoff] at hm
      cases r1 with
      | none =>
        simp only [Out.pure_eq, Out.ok.injEq, Prod.mk.injEq] at hw
        obtain ⟨rfl, rfl⟩ := hw
        exact Sess.refused (b := false) h hm
      | some o =>
        simp only at hw
        obtain ⟨P2, hadd, hw⟩ := Out.bind_eq_ok hw
        simp only [Out.pure_eq, Out.ok.injEq, Prod.mk.injEq] at hw
        obtain ⟨rfl, rfl⟩ := hw
        obtain ⟨N, hN⟩ := sess_loose h
        have hsz : w.size + 4 < 2147483648 := by
          have g := make_spec k.sees.ok hm
          obtain ⟨-, -, -, -, b4, -⟩ := g.2 o rfl
          have hz := (k.sees.got g.1).size
          have := arg_le ha
          omega
        obtain ⟨a1, a2, a3⟩ := arg_value ha hn hb hsz
        have hmd := Sess.made (b := false) h hid a1 hm (hN N (Nat.le_refl _))
        refine ⟨o, _, ?_, ha, a2, a3, plus_add hmd (hN N (Nat.le_refl _)) hp hadd⟩
        intro hc
        exact (made_sees k.sees hm).2 ((k.lists.mem o).1 hc)
    · simp only [Out.pure_eq, Out.ok.injEq, Prod.mk.injEq] at hw
      obtain ⟨rfl, rfl⟩ := hw
      exact h

/-! ### reading -/

theorem ElemAt.eId {P : Pool} {e : Nat} {id : Int} {t : XBT} {v : List UInt8} (h : ElemAt P e id t v) (ha : P.alloc ≤ P.fileSize) : P.eId e = .ok id := by
  have := h.hi
  unfold Pool.eId
  exact Img.i16_ok (f := P.img) h.id (by show _ ≤ P.fileSize; omega) h.is16 _ (by omega)

theorem ElemAt.eType {P : Pool} {e : Nat} {id : Int} {t : XBT} {v : List UInt8} (h : ElemAt P e id t v) (ha : P.alloc ≤ P.fileSize) : P.eType e = .ok t.code := by
  have := h.hi
  unfold Pool.eType
  exact Img.u8_ok (f := P.img) h.ty (by show _ ≤ P.fileSize; omega) _ (by omega)

theorem findLoop_from {P : Pool} {D : Doc} {els V fl} (k : Keeps P D els V fl) {p : Nat} (hp : p ∈ els) {c : Nat} (id : Int) : ∀ (l : List Nat) (a fuel : Nat),
    Links (V 8) (V 12) (a :: l ++ [c]) → (∀ x ∈ a :: l, x ∈ els) → c ∉ l → l.length < fuel →
    P.findLoop p c id fuel a = .ok (((a :: l).find? (fun x => D.id x = id)).map Int.ofNat)
  | l, a, fuel, hL, hm, hcl, hf => by
    obtain ⟨n, rfl⟩ : ∃ n, fuel = n + 1 := ⟨fuel - 1, by omega⟩
    have ha := hm a (by simp)
    have hsz := k.sees.size
    unfold Pool.findLoop
    rw [(k.elem a ha).eId hsz.1, Out.ok_bind, List.find?_cons]
    by_cases hi : D.id a = id
    · rw [if_pos hi]; simp [hi]
    · rw [if_neg hi, k.sees.nx ha, Out.ok_bind]
      have hfl : (decide (D.id a = id)) = false := by simp [hi]
      simp only [hfl]
      cases l with
      | nil =>
        have hnx : V 8 a = c := by simp [Links] at hL; exact hL.1
        rw [if_pos (by rw [hnx])]
        rfl
      | cons b l =>
        simp only [List.cons_append, Links] at hL
        have hbc : b ≠ c := fun h' => hcl (by simp [h'])
        have ih := findLoop_from k hp id l b n hL.2 (fun x hx => hm x (List.mem_cons_of_mem _ hx)) (fun h' => hcl (List.mem_cons_of_mem _ h')) (by simp at hf; omega)
        rw [hL.1.1, if_neg (by omega), k.sees.bwe hp, Out.ok_bind, ih]

/-- searching a list by identification finds the first -/
theorem find_spec {P : Pool} {D : Doc} {els V fl} (k : Keeps P D els V fl) {p : Nat} (hp : p ∈ els) {f : Nat} (hf : f = 16 ∨ f = 20) (id : Int) {fuel : Nat}
    (hfuel : (D.forest.at' (lst f p)).length < fuel) : P.find p f id fuel = .ok (((D.forest.at' (lst f p)).find? (fun x => D.id x = id)).map Int.ofNat) := by
  have hh := k.lists.head p hp f hf
  have hr := k.lists.ring (lst f p)
  have hn := k.lists.nodup (lst f p)
  have hm : ∀ x ∈ D.forest.at' (lst f p), x ∈ els := fun x hx => (k.lists.mem x).1 ⟨_, hx⟩
  have hk' : IsPtr f := by unfold IsPtr; omega
  unfold Pool.find
  rw [k.sees.get hp hk' _ rfl, Out.ok_bind]
  cases hl : D.forest.at' (lst f p) with
  | nil => rw [hl] at hh; replace hh : V f p = 0 := hh; rw [hh, if_pos (by simp)]; rfl
  | cons a l =>
    rw [hl] at hh hr hn hm hfuel
    have ha := hm a (by simp)
    have ha0 := k.sees.lt ha
    have hh : V f p = a := hh
    rw [hh, if_neg (by omega), k.sees.bwe hp, Out.ok_bind]
    exact findLoop_from k hp id l a fuel hr hm (List.nodup_cons.1 hn).1 (by simp at hfuel; omega)

theorem cPrefix_mem {v : List UInt8} (h : (0 : UInt8) ∈ v) : ∃ l, v = cPrefix v ++ 0 :: l := by
  induction v with
  | nil => cases h
  | cons a v ih =>
    by_cases ha : a = 0
    · subst ha; exact ⟨v, by simp [cPrefix]⟩
    · rcases List.mem_cons.1 h with h | h
      · exact absurd h.symm ha
      · obtain ⟨l, hl⟩ := ih h
        refine ⟨l, ?_⟩
        unfold cPrefix at hl ⊢
        rw [List.takeWhile_cons, if_pos (by simpa using ha), List.cons_append, ← hl]

/-- what `getData` says about an element with a good value -/
theorem getData_spec {P : Pool} {e : Nat} {id : Int} {t : XBT} {v : List UInt8} (h : ElemAt P e id t v) (hs : P.alloc ≤ P.fileSize) (hg : GoodVal t v) :
    ∃ r, P.getData e = .ok r ∧ r.type = some t ∧ r.data = e + 24 ∧ r.size = (readable t v).length ∧ Has P.mem (e + 24) (readable t v) ∧
      r.content = e + 24 + (if isVarsize t then 4 else 0) ∧ r.contentSize = r.size - (if isVarsize t then 4 else 0) := by
  have hhi := h.hi
  unfold Pool.getData
  rw [h.eType hs, Out.ok_bind, ofCode_code]
  simp only
  by_cases h1 : t = STRING
  · subst h1
    obtain ⟨l, hl⟩ := cPrefix_mem (show (0 : UInt8) ∈ v from hg)
    have hv := h.val
    rw [hl, show cPrefix v ++ 0 :: l = (cPrefix v ++ [0]) ++ l by simp, Has.append] at hv
    have hlen := congrArg List.length hl
    simp only [List.length_append, List.length_cons] at hlen
    rw [if_pos rfl, Img.str_ok (f := P.img) hv.1 (cPrefix_noNul v) (by show _ ≤ P.fileSize; omega) _ (by omega), Out.ok_bind]
    refine ⟨_, rfl, rfl, rfl, ?_, hv.1, by simp [isVarsize], by simp [isVarsize]⟩
    show 1 + ((cPrefix v).length : Int) = ((cPrefix v ++ [0]).length : Nat)
    simp; omega
  · rw [if_neg h1]
    by_cases h4 : is4 t = true
    · rw [if_pos h4]
      have : v.length = 4 ∧ readable t v = v ∧ isVarsize t = false := by
        cases t <;> first | (exact absurd h4 (by decide)) | (refine ⟨?_, rfl, rfl⟩; simpa [GoodVal, is4, isINT32] using hg)
      obtain ⟨g1, g2, g3⟩ := this
      refine ⟨_, rfl, rfl, rfl, by rw [g2, g1]; rfl, by rw [g2]; exact h.val, by simp [g3], by simp [g3]⟩
    · rw [if_neg h4]
      by_cases hvz : isVarsize t = true
      · rw [if_pos hvz]
        have : readable t v = v ∧ ∃ bs, v = le32 (bs.length : Int) ++ bs ∧ bs.length + 4 < 2147483648 := by
          cases t <;> first | (exact absurd hvz (by decide)) | exact ⟨rfl, hg⟩
        obtain ⟨g1, bs, g2, g3⟩ := this
        have hval := h.val
        have hln : v.length = 4 + bs.length := by rw [g2]; simp
        rw [g2, Has.append] at hval
        rw [Img.i32_ok (f := P.img) hval.1 (by show _ ≤ P.fileSize; omega) (isI32_of_lt (by omega)) _ (by omega), Out.ok_bind,
          if_pos (by have := isI32_of_lt (v := 4 + bs.length) (by omega); push_cast at this; exact this)]
        refine ⟨_, rfl, rfl, rfl, ?_, by rw [g1]; exact h.val, by simp only [hvz, if_true]; omega, by simp only [hvz, if_true]; omega⟩
        rw [g1, hln]; push_cast; rfl
      · rw [if_neg hvz]
        have hvz : isVarsize t = false := by simpa using hvz
        have : (fixedSize t = (readable t v).length) ∧ ∃ l, v = readable t v ++ l := by
          by_cases hsh : t = SHA1
          · subst hsh
            refine ⟨?_, v.drop 20, (List.take_append_drop 20 v).symm⟩
            show (20 : Int) = ((v.take 20).length : Nat)
            have : 20 ≤ v.length := hg
            rw [List.length_take]; omega
          · have g : (v.length : Int) = fixedSize t ∧ readable t v = v := by
              cases t <;> first | (exact absurd rfl h1) | (exact absurd rfl hsh) | (exact absurd (by decide) h4) | (exact absurd hvz (by decide)) |
                (refine ⟨?_, rfl⟩; simpa [GoodVal, is4, isINT32] using hg)
            rw [g.2]
            exact ⟨g.1.symm, [], by simp⟩
        obtain ⟨g1, l, g2⟩ := this
        have hval := h.val
        rw [g2, Has.append] at hval
        exact ⟨_, rfl, rfl, rfl, g1, hval.1, by simp [hvz], by simp [hvz]⟩

theorem readable_le (t : XBT) {v : List UInt8} (hg : GoodVal t v) : (readable t v).length ≤ v.length := by
  unfold readable
  split
  · obtain ⟨l, hl⟩ := cPrefix_mem (show (0 : UInt8) ∈ v from hg)
    have hlen := congrArg List.length hl
    simp only [List.length_append, List.length_cons] at hlen
    show (cPrefix v ++ [0]).length ≤ _
    simp; omega
  · simp; omega
  · exact Nat.le_refl _

/-- reading an attribute -/
theorem readAttr_spec {P : Pool} {D : Doc} {els V fl} (k : Keeps P D els V fl) {p : Nat} (hp : p ∈ els) (hg : ∀ a ∈ D.forest.at' (.attrs p), GoodVal (D.type a) (D.val a)) (id : Int) {fuel : Nat}
    (hfuel : (D.forest.at' (.attrs p)).length < fuel) : readAttr P p id fuel = .ok (((D.entries p).find? (fun x => x.id = id)).map fun x => (x.type, x.value)) := by
  have hsz := k.sees.size
  unfold readAttr
  have hf := find_spec k hp (Or.inr rfl) id (f := 20) hfuel
  rw [hf, Out.ok_bind]
  unfold Doc.entries
  rw [List.find?_map]
  show (match Option.map Int.ofNat (List.find? (fun x => decide (D.id x = id)) (D.forest.at' (.attrs p))) with | none => _ | some a => _) = _
  have he : ((fun x : Entry => decide (x.id = id)) ∘ fun a => (⟨D.id a, D.type a, readable (D.type a) (D.val a)⟩ : Entry)) = fun x => decide (D.id x = id) := rfl
  rw [he]
  cases hfd : List.find? (fun x => decide (D.id x = id)) (D.forest.at' (.attrs p)) with
  | none => rfl
  | some a =>
    have hmem := List.mem_of_find?_eq_some hfd
    have hae := (k.lists.mem a).1 ⟨_, hmem⟩
    have hga := hg a hmem
    obtain ⟨r, r1, r2, r3, r4, r5, -⟩ := getData_spec (k.elem a hae) hsz.1 hga
    have hle := readable_le _ hga
    have hhi := (k.elem a hae).hi
    simp only [Option.map_some]
    rw [show P.getData (Int.ofNat a) = .ok r from r1, Out.ok_bind, r2]
    simp only
    rw [if_neg (by omega), Img.rd_ok (f := P.img) r5 (by show _ ≤ P.fileSize; omega) _ (by omega) _ (by omega)]
    rfl

/-! ### success -/

/-- an element can be made when there is room -/
theorem make_ok {E : Env} {P : Pool} (hP : PoolOk P) (hsm : P.mmapSize < 2147483648) {id : Int} {t : XBT} {size off : Nat} {fl : UInt8} {bs : List UInt8} (h0 : 0 ≤ size2 t size)
    (hv : isVarsize t = true → 4 ≤ size2 t size) (hb : off + bs.length ≤ (size2 t size).toNat) (room : P.alloc + 24 + (size2 t size).toNat + 16 ≤ P.limit) :
    ∃ Q o, P.make E id t size fl off bs = .ok (Q, some o) := by
  have hl := hP.lim
  have hm := hP.map
  have hal := hP.al
  have ha8 := aa8_ge P.alloc
  have ha8' := aa8_lt P.alloc
  have hn8 := aa8_lt (24 + (size2 t size).toNat)
  have hn4 := aa_lt (24 + (size2 t size).toNat)
  have hg4 := aa_ge (24 + (size2 t size).toNat)
  have hg8 := aa8_ge (24 + (size2 t size).toNat)
  have hmax : INT_MAX = 2147483647 := rfl
  obtain ⟨Q, o, hQ, hf, ho⟩ : ∃ Q o, P.allocGrow E t (24 + (size2 t size).toNat) = .ok (Q, some o) ∧ Q.fileSize = P.fileSize ∧ o + 24 + (size2 t size).toNat ≤ P.fileSize := by
    unfold Pool.allocGrow Pool.allocFor
    split
    · rw [allocate8_eq (by omega) (by omega) (by omega) (by omega) (by omega) (by omega)]
      exact ⟨_, _, rfl, rfl, by omega⟩
    · rw [allocate_eq (by omega) (by omega) (by omega) (by omega) (by omega)]
      exact ⟨_, _, rfl, rfl, by omega⟩
  unfold Pool.make Pool.newElement
  rw [if_neg (by omega), hQ]
  simp only [Out.ok_bind]
  rw [Pool.wr_eq (a := o + 7) (by simp; omega) _ (by omega), Out.ok_bind, Pool.wr_eq (a := o + 12) (by simp; omega) _ (by omega), Out.ok_bind,
    Pool.wr_eq (a := o + 8) (by simp; omega) _ (by omega), Out.ok_bind, Pool.wr_eq (a := o) (by simp; omega) _ (by omega), Out.ok_bind]
  by_cases hvz : isVarsize t = true
  · have := hv hvz
    rw [if_pos hvz, Pool.wr_eq (a := o + 24) (by simp; omega) _ (by omega)]
    simp only [Out.ok_bind, Out.pure_eq]
    unfold Pool.initElem
    rw [Pool.wr_eq (a := o) (by simp [leN_length]; omega) _ (by omega), Out.ok_bind, Pool.wr_eq (a := o + 24 + off) (by simp only; omega) _ (by omega)]
    exact ⟨_, _, rfl⟩
  · rw [if_neg hvz]
    simp only [Out.ok_bind, Out.pure_eq]
    unfold Pool.initElem
    rw [Pool.wr_eq (a := o) (by simp [leN_length]; omega) _ (by omega), Out.ok_bind, Pool.wr_eq (a := o + 24 + off) (by simp only; omega) _ (by omega)]
    exact ⟨_, _, rfl⟩

/-- a detached attribute can be added -/
theorem plus_added {E : Env} {maxSize : Nat} (h1 : 0x4000 ≤ maxSize) (h2 : maxSize < 2147483648) {P : Pool} {D : Doc} {p o k : Nat} {id : Int} {t : XBT} {v : List UInt8}
    (h : Sess E maxSize P (D.plus k o false id t v)) (hk : D.forest.at' (.loose k) = []) (hp : D.forest.Elem p) : ∃ Q, P.add p (some (o : Int)) = .ok Q := by
  obtain ⟨els, V, fl, kp⟩ := sess_keeps h1 h2 h
  have hl : (D.plus k o false id t v).forest.at' (.loose k) = [o] := if_pos rfl
  have hp' : (D.plus k o false id t v).forest.Elem p := by
    obtain ⟨q, hq⟩ := hp
    refine ⟨q, ?_⟩
    have : (D.plus k o false id t v).forest.at' q = D.forest.at' q := by
      refine if_neg ?_
      rintro rfl
      rw [hk] at hq; cases hq
    rw [this]; exact hq
  obtain ⟨Q, -, -, hQ, -⟩ := step_spec kp.sees kp.lists (Step.add (F := (D.plus k o false id t v).forest) (p := p) (t := o) (k := k) hp' (by rw [hl]; simp))
  exact ⟨Q, hQ⟩

/-- a write of the right type succeeds when there is room -/
theorem attr_succeeds {E : Env} {maxSize : Nat} (h1 : 0x4000 ≤ maxSize) (h2 : maxSize < 2147483648) {P : Pool} {D : Doc} (h : Sess E maxSize P D) {p : Nat} (hp : D.forest.Elem p) {id : Int} (hid : Is16 id)
    {w : AttrArg} (hr : D.ready false = true) (hs : D.syms false ≠ []) (ha : w.accepts (D.symType false id) = true) {bs : List UInt8} (hb : w.bytes = .ok bs)
    (room : P.alloc + w.size + 64 ≤ P.limit) : ∃ Q, P.attr E p id w = .ok (Q, true) := by
  obtain ⟨els, V, fl, k⟩ := sess_keeps h1 h2 h
  have hsm := k.sees.small
  have hPs := k.sees.size
  have hlim := k.sees.ok.lim
  unfold Pool.attr
  by_cases hn : w.nothing = true
  · rw [if_pos hn]; exact ⟨_, rfl⟩
  · rw [if_neg hn, symType_spec k hr hs id, Out.ok_bind]
    simp only
    have hn : w.nothing = false := by simpa using hn
    obtain ⟨a1, a2, a3⟩ := arg_value ha hn hb (by omega)
    have hsz : 0 ≤ size2 (D.symType false id) w.size ∧ (size2 (D.symType false id) w.size).toNat ≤ w.size + 24 ∧ (isVarsize (D.symType false id) = true → 4 ≤ size2 (D.symType false id) w.size) := by
      generalize D.symType false id = t at ha
      cases w with
      | str v => simp only [AttrArg.accepts, beq_iff_eq] at ha; subst ha; generalize AttrArg.size _ = n; simp only [size2]; exact ⟨by omega, by omega, fun hc => absurd hc (by decide)⟩
      | str2 v => simp only [AttrArg.accepts, beq_iff_eq] at ha; subst ha; generalize AttrArg.size _ = n; simp only [size2]; exact ⟨by omega, by omega, fun hc => absurd hc (by decide)⟩
      | blob v n => simp only [AttrArg.accepts, beq_iff_eq] at ha; subst ha; simp only [size2, AttrArg.size]; exact ⟨by omega, by omega, by intro _; omega⟩
      | hex v n => simp only [AttrArg.accepts, beq_iff_eq] at ha; subst ha; simp only [size2, AttrArg.size]; exact ⟨by omega, by omega, by intro _; omega⟩
      | int64 v =>
        simp only [AttrArg.accepts, is8, Bool.or_eq_true, beq_iff_eq] at ha
        rcases ha with ((rfl | rfl) | rfl) | rfl <;> (simp only [AttrArg.size]; decide)
      | hexStr v => cases ha
      | ipv4 => cases ha
      | ipv6 => cases ha
      | _ => simp only [AttrArg.accepts, beq_iff_eq] at ha; subst ha; simp only [AttrArg.size]; decide
    have hoff : (if isVarsize (D.symType false id) = true then 4 else 0) = (sizeField (D.symType false id) 0).length := by
      unfold sizeField; split <;> simp
    rw [if_pos ha, hb, Out.ok_bind, hoff]
    obtain ⟨Q, o, hm⟩ := make_ok (E := E) (id := id) (fl := 0) (bs := bs) (off := (sizeField (D.symType false id) 0).length) k.sees.ok hsm hsz.1 hsz.2.2 (by omega) (by omega)
    rw [hm]
    simp only [Out.ok_bind]
    obtain ⟨N, hN⟩ := sess_loose h
    have hmd := Sess.made (b := false) h hid a1 hm (hN N (Nat.le_refl _))
    obtain ⟨Q', hQ'⟩ := plus_added h1 h2 hmd (hN N (Nat.le_refl _)) hp
    rw [hQ']
    exact ⟨_, rfl⟩

end BX
