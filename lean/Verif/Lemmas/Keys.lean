import Verif.Lemmas.CopyTree
import Verif.Spec.Keys
/-
Comparing keys and searching by them.
-/
namespace BX
open XBT Spec

/-! ### values -/

theorem text_none {flt : CStr → List UInt8} {s : CStr} {t : XBT} {L : Nat} (hL : 4 ≤ L) (h : textData flt s t = none) : ∀ w, fromString flt s t 0 L ≠ .ok w := by
  intro w hw
  unfold textData at h
  unfold fromString at h hw
  cases t <;> simp only at h hw
  case HEX =>
    have : ¬ s.length + 8 < aa 0 + 4 := by unfold aa; omega
    rw [if_neg this] at h
    cases h
  all_goals (first | (cases hw; done) | (cases h; done) | (rw [hw] at h; cases h))

theorem conv_spec {flt : CStr → List UInt8} (hflt : ∀ s, (flt s).length = 4) {d : Data} (hd : ∃ s, (∀ x ∈ s, x ≠ 0) ∧ d.bytes = s ++ [0]) (hl : d.bytes.length + 64 < 2147483648) {t : XBT}
    (hu : fromString flt (toC (cPrefix d.bytes)) t 0 (d.bytes.length + 64) ≠ .ub) : convText flt d.bytes t = .ok ((asText flt d t).map Data.bytes) := by
  obtain ⟨s, hn, hb⟩ := hd
  have hcp : cPrefix d.bytes = s := by rw [hb]; exact noNul_takeWhile [] hn
  have hlen : d.bytes.length = s.length + 1 := by rw [hb]; simp
  have hct : CText (toC s) := toC_ctext hn
  have htl : (toC s).length = s.length := by unfold toC; exact List.length_map ..
  rw [hcp] at hu
  unfold convText asText
  rw [hcp, if_neg (by omega)]
  cases ht : textData flt (toC s) t with
  | none =>
    have hno := text_none (L := d.bytes.length + 64) (by omega) ht
    cases hf : fromString flt (toC s) t 0 (d.bytes.length + 64) with
    | ok w => exact absurd hf (hno w)
    | fail => rfl
    | ub => exact absurd hf hu
  | some v =>
    obtain ⟨w, w1, w2, w3⟩ := fromString_total hflt (s := toC s) (t := t) (wp := 0) (limit := d.bytes.length + 64) (by rw [ht]; simp) (by omega)
    obtain ⟨v1, -, -, -⟩ := fromString_spec hflt hct w1 (by omega) hl
    rw [ht] at v1
    injection v1 with v1
    rw [w1, v1]
    rfl

theorem readable_text (v : List UInt8) : ∃ s : List UInt8, (∀ x ∈ s, x ≠ 0) ∧ readable STRING v = s ++ [0] := ⟨_, cPrefix_noNul v, rfl⟩

theorem fromFile_text {d : Data} (hd : FromFile d) (ht : d.type = STRING) : ∃ s : List UInt8, (∀ x ∈ s, x ≠ 0) ∧ d.bytes = s ++ [0] := by
  have hsz := (hd fun hz => by rw [ht] at hz; exact absurd hz (by decide)).1
  unfold Sized at hsz
  rwa [if_neg (by rw [ht]; decide), if_neg (by rw [ht]; decide), if_pos ht] at hsz

theorem sameBytes_spec {P : Pool} {r : DataRef} {e : Nat} {v : List UInt8} (h1 : r.data = e + 24) (h2 : r.size = v.length) (h3 : Has P.mem (e + 24) v) (h4 : e + 24 + v.length ≤ P.fileSize) (bs : List UInt8) :
    P.sameBytes bs r = .ok (bs == v) := by
  unfold Pool.sameBytes
  rw [h2]
  by_cases hl : bs.length = v.length
  · rw [if_neg (by omega), hl, Img.rd_ok (f := P.img) (a := e + 24) h3 (by show _ ≤ P.fileSize; omega) _ (by rw [h1]; omega) _ (by omega)]
    exact congrArg Out.ok (Bool.eq_iff_iff.2 (by simp))
  · rw [if_pos (by omega)]
    have : ¬ bs = v := fun h => hl (by rw [h])
    rw [show (bs == v) = false by simpa using this]

/-- the comparison of a value of a file with the value of an element -/
theorem equalData_spec {flt : CStr → List UInt8} (hflt : ∀ s, (flt s).length = 4) {P : Pool} {e : Nat} {id : Int} {t : XBT} {v : List UInt8} (h : ElemAt P e id t v) (he : 92 ≤ e) (hs : P.alloc ≤ P.fileSize)
    (hm : P.fileSize < 2147483648) (hg : GoodVal t v) {d : Data} (hd : FromFile d) (hl : d.bytes.length + 64 < 2147483648) (hc : Comparable flt d ⟨t, readable t v⟩) :
    ∃ r, P.getData e = .ok r ∧ P.equalData flt d r = .ok (sameData flt d ⟨t, readable t v⟩) := by
  obtain ⟨r, r1, r2, r3, r4, r5, -⟩ := getData_spec h hs hg
  have hhi := h.hi
  have hrl : (readable t v).length ≤ v.length := by
    cases t <;> first | (exact Nat.le_refl _) | skip
    · show (v.takeWhile (· ≠ 0) ++ [0]).length ≤ v.length
      obtain ⟨l, hl⟩ := cPrefix_mem (show (0 : UInt8) ∈ v from hg)
      have := congrArg List.length hl
      simp only [List.length_append, List.length_cons, cPrefix] at this ⊢
      simp only [List.length_nil]
      omega
    · show (v.take 20).length ≤ _
      rw [List.length_take]; omega
  refine ⟨r, r1, ?_⟩
  have hb := fun bs => sameBytes_spec r3 r4 r5 (by omega) bs
  unfold Pool.equalData sameData
  rw [r2]
  simp only
  by_cases h1 : d.type = t
  · rw [if_pos h1, if_pos h1, hb]
  rw [if_neg h1, if_neg h1]
  unfold Comparable at hc
  rcases hc with hc | ⟨c1, c2⟩
  · exact absurd hc h1
  by_cases h2 : d.type = STRING
  · rw [if_pos h2, if_pos h2, conv_spec hflt (fromFile_text hd h2) hl (c1 h2), Out.ok_bind]
    cases asText flt d t with
    | none => rfl
    | some w => exact hb _
  rw [if_neg h2, if_neg h2]
  by_cases h3 : t = STRING
  · subst h3
    have hv := readable_text v
    rw [if_pos rfl, if_pos rfl, r4, Img.rd_ok (f := P.img) (a := e + 24) r5 (by show _ ≤ P.fileSize; omega) _ (by rw [r3]; omega) _ (by omega), Out.ok_bind,
      conv_spec hflt (d := ⟨STRING, readable STRING v⟩) hv (by show (readable STRING v).length + 64 < _; omega) (c2 rfl), Out.ok_bind]
    cases asText flt ⟨STRING, readable STRING v⟩ d.type with
    | none => rfl
    | some w => exact congrArg Out.ok (Bool.eq_iff_iff.2 (by simp))
  · rw [if_neg h3, if_neg h3]
    rfl

/-! ### keys -/

theorem pGetData_len {f : Img} (hf : f.size + 64 < 2147483648) {x a : Int} {d : Data} (h : f.pGetData x a = .ok d) : d.bytes.length + 64 < 2147483648 := by
  by_cases hv : isVarsize d.type = true → 4 ≤ d.bytes.length
  · unfold Img.pGetData at h
    obtain ⟨c, -, h⟩ := Out.bind_eq_ok h
    split at h
    · cases h
    · split at h
      · have := (content_sized h hv).2.1; omega
      · obtain ⟨w, -, h⟩ := Out.bind_eq_ok h
        have := (content_sized h hv).2.1; omega
  · have : ¬ 4 ≤ d.bytes.length := fun h' => hv fun _ => h'
    omega

theorem firstOf_attrs (D : Doc) (e : Nat) (n : Int) :
    firstOf n (D.attrsOf e) = ((D.forest.at' (.attrs e)).find? fun a => D.id a = n).map fun a => ⟨D.type a, readable (D.type a) (D.val a)⟩ := by
  unfold firstOf Doc.attrsOf
  rw [List.find?_map, Option.map_map]
  rfl

/-- one key of the item is looked for -/
def keyThere (flt : CStr → List UInt8) (bs : List (Int × Data)) (a : Int × Data) : Bool := ((firstOf a.1 bs).map (sameData flt a.2)).getD false

theorem keyEqual_spec {flt : CStr → List UInt8} (hflt : ∀ s, (flt s).length = 4) {f : Img} (hf : f.size + 64 < 2147483648) {P : Pool} {D : Doc} {els V fl} (k : Keeps P D els V fl) {e : Nat} (he : e ∈ els) {x a : Int}
    {nm : Int} {d : Data} (hd : f.pGetData x a = .ok d) (hc : ∀ b ∈ D.forest.at' (.attrs e), D.id b = nm → GoodVal (D.type b) (D.val b) ∧ Comparable flt d ⟨D.type b, readable (D.type b) (D.val b)⟩)
    {fuel : Nat} (hfu : (D.forest.at' (.attrs e)).length < fuel) : P.keyEqual flt f e x a nm fuel = .ok (keyThere flt (D.attrsOf e) (nm, d)) := by
  have hsz := k.sees.size
  have hok := k.sees.ok
  have hsm := k.sees.small
  have hlen := pGetData_len hf hd
  unfold Pool.keyEqual keyThere
  rw [find_spec k he (f := 20) (Or.inr rfl) nm hfu, Out.ok_bind, firstOf_attrs, show lst 20 e = .attrs e from rfl]
  cases hfi : (D.forest.at' (.attrs e)).find? fun b => decide (D.id b = nm) with
  | none => rfl
  | some b =>
    have hb := List.mem_of_find?_eq_some hfi
    have hid : D.id b = nm := by simpa using List.find?_some hfi
    obtain ⟨g1, g2⟩ := hc b hb hid
    have hbe := (k.lists.mem b).1 ⟨_, hb⟩
    have h92 : 92 ≤ b := (k.sees.range b hbe).1
    have hl := hok.lim
    have hmp := hok.map
    obtain ⟨r, r1, r2⟩ := equalData_spec hflt (k.elem b hbe) h92 hsz.1 (by omega) g1 (pGetData_from (by omega) hd) (by omega) g2
    simp only [Option.map_some, Option.getD_some]
    rw [hd, Out.ok_bind, show (Int.ofNat b) = ((b : Nat) : Int) from rfl, r1, Out.ok_bind, r2]

theorem keysLoop_spec {flt : CStr → List UInt8} (hflt : ∀ s, (flt s).length = 4) {isKey : Int → Bool} {f : Img} (hf : f.size + 64 < 2147483648) {P : Pool} {D : Doc} {els V fl} (k : Keeps P D els V fl) {e : Nat}
    (he : e ∈ els) {x : Int} {fuel : Nat} (hfu : (D.forest.at' (.attrs e)).length < fuel) : ∀ (as : List (Int × Data)) (i : Nat) (ck : List Int),
    (∀ j (h : j < as.length), ∃ a, f.getParamByIndex x ((i + j : Nat) : Int) = .ok (some a) ∧ f.pName a = .ok as[j].1 ∧ f.pGetData x a = .ok as[j].2) → D.Clear flt isKey e as → ck.length ≤ 16 →
    P.keysLoop flt isKey f e x fuel as.length i ck =
      .ok (if (keysOf isKey as).all (keyThere flt (D.attrsOf e)) = true ∧ ck.length + (keysOf isKey as).length ≤ 16 then some (ck ++ (keysOf isKey as).map Prod.fst) else none)
  | [], i, ck, _, _, hck => by
    unfold Pool.keysLoop
    rw [if_pos ⟨rfl, hck⟩]
    simp [keysOf]
  | a :: as, i, ck, hsh, hcl, hck => by
    obtain ⟨at1, g1, g2, g3⟩ := hsh 0 (by simp)
    simp only [List.getElem_cons_zero, Nat.add_zero] at g1 g2 g3
    have hsh' : ∀ j (h : j < as.length), ∃ a, f.getParamByIndex x ((i + 1 + j : Nat) : Int) = .ok (some a) ∧ f.pName a = .ok as[j].1 ∧ f.pGetData x a = .ok as[j].2 := fun j hj => by
      obtain ⟨b, b1, b2, b3⟩ := hsh (j + 1) (by simp; omega)
      refine ⟨b, ?_, by simpa using b2, by simpa using b3⟩
      rw [show i + 1 + j = i + (j + 1) by omega]; exact b1
    have hcl' : D.Clear flt isKey e as := fun b hb hk => ⟨(hcl b hb hk).1, fun d hd => (hcl b hb hk).2 d (List.mem_cons_of_mem _ hd)⟩
    have hi : (i : Int) + 1 = ((i + 1 : Nat) : Int) := by push_cast; rfl
    show Pool.keysLoop flt isKey f P e x fuel (as.length + 1) i ck = _
    unfold Pool.keysLoop
    rw [g1]
    simp only [Out.ok_bind]
    rw [g2]
    simp only [Out.ok_bind]
    cases hk : isKey a.1 with
    | false =>
      rw [if_pos rfl, hi, keysLoop_spec hflt hf k he hfu as (i + 1) ck hsh' hcl' hck, show keysOf isKey (a :: as) = keysOf isKey as by unfold keysOf; rw [List.filter_cons, hk]; rfl]
    | true =>
      rw [if_neg (by simp), keyEqual_spec hflt hf k he g3 (fun b hb hid => ⟨(hcl b hb (by rw [hid]; exact hk)).1, (hcl b hb (by rw [hid]; exact hk)).2 a.2 (by rw [hid]; simp)⟩) hfu, Out.ok_bind]
      have hke : keysOf isKey (a :: as) = a :: keysOf isKey as := by unfold keysOf; rw [List.filter_cons, hk]; rfl
      rw [hke, List.all_cons]
      cases ht : keyThere flt (D.attrsOf e) (a.1, a.2) with
      | false =>
        rw [if_pos rfl, if_neg (by simp)]
        rfl
      | true =>
        rw [if_neg (by simp)]
        by_cases h16 : 16 ≤ ck.length
        · rw [if_pos h16, if_neg (by rw [List.length_cons]; omega)]
          rfl
        · rw [if_neg h16, hi, keysLoop_spec hflt hf k he hfu as (i + 1) (ck ++ [a.1]) hsh' hcl' (by simp; omega)]
          simp only [Bool.true_and, List.length_append, List.length_nil, List.length_cons, List.map_cons, List.append_assoc, List.singleton_append]
          rw [show ck.length + (0 + 1) + (keysOf isKey as).length = ck.length + ((keysOf isKey as).length + 1) by omega]

theorem knownLoop_from {isKey : Int → Bool} {P : Pool} {D : Doc} {els V fl} (k : Keeps P D els V fl) {p : Nat} (hp : p ∈ els) {c : Nat} (ck : List Int) : ∀ (l : List Nat) (a fuel : Nat),
    Links (V 8) (V 12) (a :: l ++ [c]) → (∀ x ∈ a :: l, x ∈ els) → c ∉ l → l.length < fuel →
    P.knownLoop isKey p c ck fuel a = .ok ((a :: l).all fun x => !(isKey (D.id x)) || decide (D.id x ∈ ck))
  | l, a, fuel, hL, hm, hcl, hf => by
    obtain ⟨n, rfl⟩ : ∃ n, fuel = n + 1 := ⟨fuel - 1, by omega⟩
    have ha := hm a (by simp)
    have hsz := k.sees.size
    unfold Pool.knownLoop
    rw [(k.elem a ha).eId hsz.1, Out.ok_bind, List.all_cons]
    by_cases hi : isKey (D.id a) = true ∧ D.id a ∉ ck
    · rw [if_pos hi]; simp [hi.1, hi.2]
    · rw [if_neg hi, k.sees.nx ha, Out.ok_bind]
      have hfl : (!(isKey (D.id a)) || decide (D.id a ∈ ck)) = true := by
        cases h1 : isKey (D.id a) with
        | false => rfl
        | true => simpa using Classical.byContradiction fun h2 => hi ⟨h1, h2⟩
      rw [hfl, Bool.true_and]
      cases l with
      | nil =>
        have hnx : V 8 a = c := by simp [Links] at hL; exact hL.1
        rw [if_pos (by rw [hnx])]
        rfl
      | cons b l =>
        simp only [List.cons_append, Links] at hL
        have hbc : b ≠ c := fun h' => hcl (by simp [h'])
        have ih := knownLoop_from (isKey := isKey) k hp ck l b n hL.2 (fun x hx => hm x (List.mem_cons_of_mem _ hx)) (fun h' => hcl (List.mem_cons_of_mem _ h')) (by simp at hf; omega)
        rw [hL.1.1, if_neg (by omega), k.sees.bwe hp, Out.ok_bind, ih]

theorem keysOf_names (isKey : Int → Bool) (as : List (Int × Data)) (n : Int) (h : isKey n = true) : decide (n ∈ (keysOf isKey as).map Prod.fst) = as.any fun a => a.1 = n := by
  rw [Bool.eq_iff_iff, decide_eq_true_eq, List.any_eq_true]
  simp only [List.mem_map, keysOf, List.mem_filter, decide_eq_true_eq]
  constructor
  · rintro ⟨a, ⟨h1, -⟩, rfl⟩; exact ⟨a, h1, rfl⟩
  · rintro ⟨a, h1, rfl⟩; exact ⟨a, ⟨h1, h⟩, rfl⟩

/-- the comparison of the keys of an element with those of an item -/
theorem equalKeys_spec {flt : CStr → List UInt8} (hflt : ∀ s, (flt s).length = 4) (isKey : Int → Bool) {f : Img} (hf : f.size + 64 < 2147483648) {P : Pool} {D : Doc} {els V fl} (k : Keeps P D els V fl) {e : Nat}
    (he : e ∈ els) {x : Int} {as : List (Int × Data)} (hsh : ShowsAttrs f x as) (hcl : D.Clear flt isKey e as) {fuel : Nat} (hfu : (D.forest.at' (.attrs e)).length < fuel) :
    P.equalKeys flt isKey f e x fuel = .ok (sameKeys flt isKey as (D.attrsOf e) && decide ((keysOf isKey as).length ≤ 16)) := by
  have hh : V 20 e = _ := k.lists.head e he 20 (Or.inr rfl)
  have hr := k.lists.ring (.attrs e)
  have hnd := k.lists.nodup (.attrs e)
  have hm : ∀ x ∈ D.forest.at' (.attrs e), x ∈ els := fun x hx => (k.lists.mem x).1 ⟨_, hx⟩
  rw [show lst 20 e = .attrs e from rfl] at hh
  have hlp := keysLoop_spec hflt (isKey := isKey) hf k he hfu as 0 [] (fun j hj => by rw [Nat.zero_add]; exact hsh.2 j hj) hcl (Nat.zero_le _)
  unfold Pool.equalKeys
  rw [hsh.1]
  simp only [Out.ok_bind, Int.toNat_natCast]
  simp only [Int.ofNat_zero] at hlp ⊢
  rw [hlp, Out.ok_bind]
  simp only [List.length_nil, Nat.zero_add, List.nil_append]
  unfold sameKeys
  show _ = Out.ok (((keysOf isKey as).all (keyThere flt (D.attrsOf e)) && _) && _)
  by_cases hc : (keysOf isKey as).all (keyThere flt (D.attrsOf e)) = true ∧ (keysOf isKey as).length ≤ 16
  · rw [if_pos hc]
    simp only
    have key : (D.forest.at' (.attrs e)).all (fun x => !(isKey (D.id x)) || decide (D.id x ∈ (keysOf isKey as).map Prod.fst)) = (keysOf isKey (D.attrsOf e)).all fun b => as.any fun a => a.1 = b.1 := by
      unfold Doc.attrsOf keysOf
      rw [List.filter_map, List.all_map, List.all_filter]
      congr 1
      funext y
      simp only [Function.comp]
      cases hk : isKey (D.id y) with
      | false => rfl
      | true => exact keysOf_names isKey as (D.id y) hk
    rw [hc.1, Bool.true_and, decide_eq_true hc.2, Bool.and_true, ← key]
    unfold Pool.eAttr
    rw [k.sees.get (k := 20) he (by unfold IsPtr; omega) ((e : Int) + 20) rfl, Out.ok_bind]
    cases hl : D.forest.at' (.attrs e) with
    | nil => rw [hl] at hh; replace hh : V 20 e = 0 := hh; rw [hh, if_pos (by simp)]; rfl
    | cons a l =>
      rw [hl] at hh hr hnd hm hfu
      have ha := hm a (by simp)
      have ha0 := k.sees.lt ha
      have hh : V 20 e = a := hh
      rw [hh, if_neg (by omega), k.sees.bwe he, Out.ok_bind]
      exact knownLoop_from k he _ l a fuel hr hm (List.nodup_cons.1 hnd).1 (by simp at hfu; omega)
  · rw [if_neg hc]
    cases h1 : (keysOf isKey as).all (keyThere flt (D.attrsOf e)) with
    | false => rfl
    | true =>
      have : ¬ (keysOf isKey as).length ≤ 16 := fun h2 => hc ⟨h1, h2⟩
      rw [decide_eq_false this, Bool.and_false]
      rfl

/-! ### children -/

theorem elemAt_spec {P : Pool} {els V fl} (s : Sees P els V fl) {e : Nat} (he : e ∈ els) : P.elemAt e = .ok (e : Int) := by
  have := s.range e he
  have := s.ok.le; have := s.ok.lim
  have hsz := s.size
  unfold Pool.elemAt
  rw [if_pos (by omega)]

theorem findKeysLoop_from {flt : CStr → List UInt8} (hflt : ∀ s, (flt s).length = 4) (isKey : Int → Bool) {f : Img} (hf : f.size + 64 < 2147483648) {P : Pool} {D : Doc} {els V fl} (k : Keeps P D els V fl) {x : Int}
    {as : List (Int × Data)} (hsh : ShowsAttrs f x as) (h16 : (keysOf isKey as).length ≤ 16) {c m : Nat} : ∀ (l : List Nat) (a fuel : Nat),
    Links (V 8) (V 12) (a :: l ++ [c]) → (∀ x ∈ a :: l, x ∈ els) → (∀ x ∈ a :: l, D.Clear flt isKey x as ∧ (D.forest.at' (.attrs x)).length < m) → c ∉ l → l.length < fuel →
    P.findKeysLoop flt isKey f c x m fuel a = .ok (((a :: l).find? fun y => sameKeys flt isKey as (D.attrsOf y)).map Int.ofNat)
  | l, a, fuel, hL, hm, ht, hcl, hfu => by
    obtain ⟨q, rfl⟩ : ∃ q, fuel = q + 1 := ⟨fuel - 1, by omega⟩
    have ha := hm a (by simp)
    obtain ⟨t1, t2⟩ := ht a (by simp)
    unfold Pool.findKeysLoop
    rw [equalKeys_spec hflt isKey hf k ha hsh t1 t2, Out.ok_bind, List.find?_cons, decide_eq_true h16, Bool.and_true]
    cases hq : sameKeys flt isKey as (D.attrsOf a) with
    | true => rfl
    | false =>
      simp only
      rw [if_neg (by simp), k.sees.nx ha, Out.ok_bind]
      cases l with
      | nil =>
        have hnx : V 8 a = c := by simp [Links] at hL; exact hL.1
        rw [if_pos (by rw [hnx])]
        rfl
      | cons b l =>
        simp only [List.cons_append, Links] at hL
        have hbc : b ≠ c := fun h' => hcl (by simp [h'])
        have ih := findKeysLoop_from hflt isKey hf k hsh h16 (m := m) l b q hL.2 (fun x hx => hm x (List.mem_cons_of_mem _ hx)) (fun x hx => ht x (List.mem_cons_of_mem _ hx)) (fun h' => hcl (List.mem_cons_of_mem _ h')) (by simp at hfu; omega)
        rw [hL.1.1, if_neg (by omega), elemAt_spec k.sees (hm b (by simp)), Out.ok_bind, ih]

theorem findKeys_spec {flt : CStr → List UInt8} (hflt : ∀ s, (flt s).length = 4) (isKey : Int → Bool) {f : Img} (hf : f.size + 64 < 2147483648) {P : Pool} {D : Doc} {els V fl} (k : Keeps P D els V fl) {p : Nat}
    (hp : p ∈ els) {x : Int} {as : List (Int × Data)} (hsh : ShowsAttrs f x as) (h16 : (keysOf isKey as).length ≤ 16) (hcl : ∀ c ∈ D.forest.at' (.kids p), D.Clear flt isKey c as) {fuel : Nat}
    (hfu : (D.forest.at' (.kids p)).length < fuel ∧ ∀ c ∈ D.forest.at' (.kids p), (D.forest.at' (.attrs c)).length < fuel) :
    P.findKeys flt isKey f p x fuel = .ok ((D.childOf flt isKey p as).map Int.ofNat) := by
  have hh : V 16 p = _ := k.lists.head p hp 16 (Or.inl rfl)
  have hr := k.lists.ring (.kids p)
  have hnd := k.lists.nodup (.kids p)
  have hm : ∀ x ∈ D.forest.at' (.kids p), x ∈ els := fun x hx => (k.lists.mem x).1 ⟨_, hx⟩
  have ht : ∀ x ∈ D.forest.at' (.kids p), D.Clear flt isKey x as ∧ (D.forest.at' (.attrs x)).length < fuel := fun x hx => ⟨hcl x hx, hfu.2 x hx⟩
  have hfu := hfu.1
  unfold Pool.findKeys Pool.eChild Doc.childOf
  rw [k.sees.get (k := 16) hp (by unfold IsPtr; omega) ((p : Int) + 16) rfl, Out.ok_bind]
  rw [show lst 16 p = .kids p from rfl] at hh
  cases hl : D.forest.at' (.kids p) with
  | nil => rw [hl] at hh; replace hh : V 16 p = 0 := hh; rw [hh, if_pos (by simp)]; rfl
  | cons a l =>
    rw [hl] at hh hr hnd hm hfu ht
    have ha := hm a (by simp)
    have ha0 := k.sees.lt ha
    have hh : V 16 p = a := hh
    rw [hh, if_neg (by omega), elemAt_spec k.sees ha, Out.ok_bind]
    exact findKeysLoop_from hflt isKey hf k hsh h16 l a fuel hr hm ht (List.nodup_cons.1 hnd).1 (by simp at hfu; omega)

end BX
