import Verif.Lemmas.EditSet
import Verif.Props.Grow
import Verif.Props.Edit
/-
C62: setting the value of a child, which is made if there is none.
-/
namespace BX
open XBT Spec

/-- the document after a call that returned an element -/
def poolOfI : Out (Pool × Option Int) → Pool
  | .ok (P, _) => P
  | _ => Pool.empty 0

theorem poolOfI_eq {r : Out (Pool × Option Int)} {o : Int} (h : (match r with | .ok (_, some x) => x == o | _ => false) = true) : r = .ok (poolOfI r, some o) := by
  match r, h with
  | .ok (P, some x), h => rw [show x = o by simpa using h]; rfl

theorem find_setFirst {id : Int} {new : Entry → Entry} {fresh : Entry} (hn : ∀ x, (new x).id = id) (hf : fresh.id = id) : ∀ l : List Entry,
    (setFirst id new fresh l).find? (fun x => x.id = id) = some (match l.find? (fun x => x.id = id) with | some x => new x | none => fresh)
  | [] => by simp [setFirst, hf]
  | x :: l => by
    unfold setFirst
    by_cases h : x.id = id
    · rw [if_pos h, List.find?_cons_of_pos (by simp [hn]), List.find?_cons_of_pos (by simp [h])]
    · rw [if_neg h, List.find?_cons_of_neg (by simp [h]), List.find?_cons_of_neg (by simp [h]), find_setFirst hn hf l]

/-- C62 (partial): after any history of a writable document whose symbols have been registered, a call that sets a child of `p` and returns an element
has the effect of an assignment: in the list of the children, as enumeration and reading show it, the first child with that identification has the
new value, at the same place; if there was none, it is the last child. All other children, all attributes, the lists of all other elements and
the root are as they were. What is missing: a child that is the only one and does not have the right type or enough room
(`C62_single_false`), a time that is set again (`C62_time_false`), the element that is returned (`C62_returned_false`) and the attributes and children
of the child that is set (`C62_subtree_false`). -/
theorem C62_set_partial (E : Env) (maxSize : Nat) (h1 : 0x4000 ≤ maxSize) (h2 : maxSize < 2147483648) (P Q : Pool) (D : Doc) (h : Sess E maxSize P D) (hr : D.ready true = true) (hs : D.syms true ≠ [])
    (p : Nat) (hp : D.forest.Elem p) (hg : ∀ a ∈ D.forest.at' (.kids p), GoodVal (D.type a) (D.val a)) (id : Int) (hid : Is16 id) (w : SetArg)
    (hfit : ∀ c, D.kid p id = some c → (D.fits c w ∨ 2 ≤ (D.forest.at' (.kids p)).length) ∧ ∀ v, w ≠ .time v) (fuel : Nat) (hfuel : (D.forest.at' (.kids p)).length < fuel)
    (c' : Int) (hw : P.tagSet E p id w fuel = .ok (Q, some c')) :
    ∃ D', Sess E maxSize Q D' ∧ OnlyKid p (D.kid p id) D D' ∧ (∀ a ∈ D'.forest.at' (.kids p), GoodVal (D'.type a) (D'.val a)) ∧
      D'.kidEntries p = setKids (D.symType true id) id w (D.kidEntries p) ∧
      ∀ fuel', fuel < fuel' → (∃ es, Q.forwards p fuel' 0 = .ok es ∧ readKids Q es = .ok ((setKids (D.symType true id) id w (D.kidEntries p)).map fun x => (x.id, ⟨x.type, x.value⟩))) ∧
        ∀ id', readKid Q p id' fuel' = .ok (((setKids (D.symType true id) id w (D.kidEntries p)).find? (fun x => x.id = id')).map fun x => ⟨x.type, x.value⟩) := by
  obtain ⟨D', d1, ⟨d2, d3, d4⟩, -⟩ := tagSet_spec h1 h2 h hp hid hr hs hg hfit hfuel hw
  obtain ⟨els, V, fl, k⟩ := sess_keeps h1 h2 d1
  have hpe : p ∈ els := (k.lists.mem p).1 (d2.elem p hp).1
  refine ⟨D', d1, d2, d4, d3, fun fuel' hf' => ?_⟩
  have hlen : ∀ l : List Entry, (setKids (D.symType true id) id w l).length ≤ l.length + 1 := by
    intro l
    unfold setKids
    induction l with
    | nil => simp [setFirst]
    | cons x l ih => simp only [setFirst]; split <;> simp [List.length_cons] <;> omega
  have hl : (D'.forest.at' (.kids p)).length < fuel' := by
    have e1 := congrArg List.length d3
    have e2 := hlen (D.kidEntries p)
    rw [← e1] at e2
    simp only [Doc.kidEntries, List.length_map] at e2
    omega
  refine ⟨⟨_, enum_forwards k.sees k.lists hpe hl, ?_⟩, fun id' => ?_⟩
  · rw [readKids_spec k _ fun a ha => ⟨(k.lists.mem a).1 ⟨_, ha⟩, d4 a ha⟩]
    exact congrArg (fun l : List Entry => Out.ok (l.map fun x => (x.id, (⟨x.type, x.value⟩ : Data)))) d3
  · rw [readKid_spec k hpe d4 id' hl, d3]

/-- C62: after a child has been set, reading it gives the value; reading any other child gives what it gave before. -/
theorem C62_value (E : Env) (maxSize : Nat) (h1 : 0x4000 ≤ maxSize) (h2 : maxSize < 2147483648) (P Q : Pool) (D : Doc) (h : Sess E maxSize P D) (hr : D.ready true = true) (hs : D.syms true ≠ [])
    (p : Nat) (hp : D.forest.Elem p) (hg : ∀ a ∈ D.forest.at' (.kids p), GoodVal (D.type a) (D.val a)) (id : Int) (hid : Is16 id) (w : SetArg) (hpl : w ≠ .plain)
    (hfit : ∀ c, D.kid p id = some c → (D.fits c w ∨ 2 ≤ (D.forest.at' (.kids p)).length) ∧ ∀ v, w ≠ .time v) (fuel : Nat) (hfuel : (D.forest.at' (.kids p)).length < fuel)
    (c' : Int) (hw : P.tagSet E p id w fuel = .ok (Q, some c')) (fuel' : Nat) (hf' : fuel < fuel') :
    (∃ t, readKid Q p id fuel' = .ok (some ⟨t, setValue w⟩)) ∧ ∀ id', id' ≠ id → readKid Q p id' fuel' = readKid P p id' fuel := by
  obtain ⟨D', -, -, -, -, d5⟩ := C62_set_partial E maxSize h1 h2 P Q D h hr hs p hp hg id hid w hfit fuel hfuel c' hw
  obtain ⟨els, V, fl, k⟩ := sess_keeps h1 h2 h
  have hd := (d5 fuel' hf').2
  refine ⟨?_, fun id' hne => ?_⟩
  · rw [hd id]
    unfold setKids
    cases w with
    | plain => exact absurd rfl hpl
    | _ =>
      simp only
      rw [find_setFirst (id := id) (fun _ => rfl) rfl]
      split <;> exact ⟨_, rfl⟩
  · rw [hd id', readKid_spec k ((k.lists.mem p).1 hp) hg id' hfuel]
    refine congrArg (fun o : Option Entry => Out.ok (o.map fun x => (⟨x.type, x.value⟩ : Data))) ?_
    unfold setKids
    generalize D.kidEntries p = l
    induction l with
    | nil => simp [setFirst, Ne.symm hne]
    | cons x l ih =>
      unfold setFirst
      by_cases hx : x.id = id
      · rw [if_pos hx]
        have hx' : x.id ≠ id' := by rw [hx]; exact Ne.symm hne
        rw [List.find?_cons_of_neg (by cases w <;> simp [hx', Ne.symm hne]), List.find?_cons_of_neg (by simp [hx'])]
      · rw [if_neg hx, List.find?_cons, List.find?_cons, ih]

/-- C62: a call that returns a null pointer changes nothing. -/
theorem C62_refused (E : Env) (maxSize : Nat) (h1 : 0x4000 ≤ maxSize) (h2 : maxSize < 2147483648) (P Q : Pool) (D : Doc) (h : Sess E maxSize P D) (hr : D.ready true = true) (hs : D.syms true ≠ [])
    (p : Nat) (hp : D.forest.Elem p) (hg : ∀ a ∈ D.forest.at' (.kids p), GoodVal (D.type a) (D.val a)) (id : Int) (hid : Is16 id) (w : SetArg)
    (hfit : ∀ c, D.kid p id = some c → (D.fits c w ∨ 2 ≤ (D.forest.at' (.kids p)).length) ∧ ∀ v, w ≠ .time v) (fuel : Nat) (hfuel : (D.forest.at' (.kids p)).length < fuel)
    (hw : P.tagSet E p id w fuel = .ok (Q, none)) : Sess E maxSize Q D := tagSet_spec h1 h2 h hp hid hr hs hg hfit hfuel hw

/-- the memory an argument points to holds the value -/
def SetOk : SetArg → Prop
  | .str v => ∃ m, v = some m ∧ (0 : UInt8) ∈ m
  | .sha1 v => ∃ m, v = some m ∧ 20 ≤ m.length
  | _ => True

/-- the types of symbols for which a call can make a child: its own, and all numbers of the same size -/
def SetSym : SetArg → XBT → Prop
  | .plain, t => t = NULL
  | .int32 _, t => t ∈ [INT32, INT32_DECI, INT32_CENTI, INT32_MILI, INT32_MICRO, INT32_NANO, UINT32, FLOAT, UNIX_TIME, IPv4]
  | .int64 _, t => t ∈ [INT64, UINT64, DOUBLE, UNIX_TIME64_MSEC]
  | .str _, t => t = STRING
  | .time _, t => t = UNIX_TIME
  | .sha1 _, t => t = SHA1

theorem setOk_bytes {w : SetArg} (hw : SetOk w) : ∃ bs, w.bytes = .ok bs := by
  cases w with
  | str v =>
    obtain ⟨m, rfl, hm⟩ := hw
    obtain ⟨l, hl⟩ := cPrefix_mem hm
    have hlen := congrArg List.length hl
    simp only [List.length_append, List.length_cons] at hlen
    simp only [SetArg.bytes]
    rw [if_neg (by omega)]
    exact ⟨_, rfl⟩
  | sha1 v =>
    obtain ⟨m, rfl, hm⟩ := hw
    simp only [SetArg.bytes]
    rw [if_neg (by omega)]
    exact ⟨_, rfl⟩
  | _ => exact ⟨_, rfl⟩

theorem setSym_accepts {w : SetArg} {t : XBT} (h : SetSym w t) : w.accepts t = true ∧ 0 ≤ size2 t w.size ∧ size2 t w.size ≤ w.size + 24 := by
  cases w <;> simp only [SetSym, List.mem_cons, List.not_mem_nil, or_false] at h <;> simp only [SetArg.accepts, SetArg.size]
  case int32 => rcases h with rfl | rfl | rfl | rfl | rfl | rfl | rfl | rfl | rfl | rfl <;> decide
  case int64 => rcases h with rfl | rfl | rfl | rfl <;> decide
  case str v => subst h; cases v <;> simp [size2, SetArg.size] <;> omega
  all_goals (subst h; decide)

/-- C62: a child that does not exist is made, when the call is for the type of its symbol and there is room. -/
theorem C62_makes (E : Env) (hpl : E.plugin = true) (hE : ∀ n, E.trunc n = true) (maxSize : Nat) (h1 : 0x4000 ≤ maxSize) (h2 : maxSize < 2147483648) (P : Pool) (D : Doc) (h : Sess E maxSize P D)
    (hr : D.ready true = true) (hs : D.syms true ≠ []) (p : Nat) (hp : D.forest.Elem p) (id : Int) (hid : Is16 id) (w : SetArg) (hk : D.kid p id = none) (hsym : SetSym w (D.symType true id)) (hok : SetOk w)
    (fuel : Nat) (hfuel : (D.forest.at' (.kids p)).length < fuel) (room : P.alloc + w.size + 0x1080 ≤ P.mmapSize) : ∃ Q o, P.tagSet E p id w fuel = .ok (Q, some o) := by
  obtain ⟨els, V, fl, k⟩ := sess_keeps h1 h2 h
  obtain ⟨bs, hb⟩ := setOk_bytes hok
  obtain ⟨s1, s2, s3⟩ := setSym_accepts hsym
  obtain ⟨v1, n, v2, -⟩ := set_value s1 hb
  rw [List.length_append] at v2
  obtain ⟨P1, o, q1, q2, -⟩ := allocGrow_ok hpl hE k.sees.ok k.sees.small (D.symType true id) (n := 24 + (size2 (D.symType true id) w.size).toNat) (by omega) (by omega)
  obtain ⟨R, hR⟩ := make_alloc (id := id) (fl := 1) (off := 0) (bs := bs) s2 (fun hv => by rw [v1] at hv; cases hv) (by omega) q1 q2
  have hpt : P.poolTag E id w = .ok (R, some o) := by
    unfold Pool.poolTag
    rw [symType_spec k hr hs, Out.ok_bind]
    simp only
    rw [if_pos s1, hb, Out.ok_bind, hR]
  have hsp := poolTag_spec h1 h2 h hid hr hs hpt
  simp only at hsp
  obtain ⟨j, v, a1, a2, a3, a4, a5, a6⟩ := hsp
  obtain ⟨els1, V1, fl1, k1⟩ := sess_keeps h1 h2 a6
  have hl : (D.plus j o true id (D.symType true id) v).forest.at' (.loose j) = [o] := if_pos rfl
  have hst := Step.add (F := (D.plus j o true id (D.symType true id) v).forest) (p := p) (t := o) (k := j) (plus_elem a1 hp) (by rw [hl]; simp)
  obtain ⟨Q, -, -, hQ, -⟩ := step_spec k1.sees k1.lists hst
  refine ⟨Q, o, ?_⟩
  unfold Pool.tagSet
  have hf := find_spec k ((k.lists.mem p).1 hp) (Or.inl rfl) id (f := 16) hfuel
  rw [hf, Out.ok_bind]
  have hkid : (D.forest.at' (lst 16 p)).find? (fun x => decide (D.id x = id)) = D.kid p id := rfl
  rw [hkid, hk]
  simp only [Option.map_none]
  unfold Pool.tagNew
  rw [hpt, Out.ok_bind]
  simp only [Option.map_some]
  rw [show R.add p (some (Int.ofNat o)) = .ok Q from hQ]
  rfl

/-- C62: a child that exists and has the type the call is for and, for a text, enough room, is changed without any new memory. -/
theorem C62_changes (E : Env) (maxSize : Nat) (h1 : 0x4000 ≤ maxSize) (h2 : maxSize < 2147483648) (P : Pool) (D : Doc) (h : Sess E maxSize P D) (p : Nat) (hp : D.forest.Elem p)
    (hg : ∀ a ∈ D.forest.at' (.kids p), GoodVal (D.type a) (D.val a)) (id : Int) (w : SetArg) (c : Nat) (hk : D.kid p id = some c) (hfit : D.fits c w) (hok : SetOk w) (fuel : Nat)
    (hfuel : (D.forest.at' (.kids p)).length < fuel) : ∃ Q, P.tagSet E p id w fuel = .ok (Q, some (c : Int)) ∧ Q.alloc = P.alloc := by
  obtain ⟨els, V, fl, k⟩ := sess_keeps h1 h2 h
  have hm := List.mem_of_find?_eq_some hk
  have hce := (k.lists.mem c).1 ⟨_, hm⟩
  have hEl := k.elem c hce
  have hpad := hEl.pad
  have hsz := k.sees.size
  have haa : (D.val c).length ≤ aa (D.val c).length := by unfold aa; omega
  have hgc := hg c hm
  have hwr : ∀ bs : List UInt8, bs.length ≤ aa (D.val c).length → ∃ Q, P.tagWrite c bs = .ok (Q, some (c : Int)) ∧ Q.alloc = P.alloc := by
    intro bs hbs
    unfold Pool.tagWrite
    rw [Pool.wr_eq (a := c + 24) (by omega) _ (by omega), Out.ok_bind]
    exact ⟨_, rfl, rfl⟩
  unfold Pool.tagSet
  have hf := find_spec k ((k.lists.mem p).1 hp) (Or.inl rfl) id (f := 16) hfuel
  rw [hf, Out.ok_bind]
  have hkid : (D.forest.at' (lst 16 p)).find? (fun x => decide (D.id x = id)) = D.kid p id := rfl
  rw [hkid, hk]
  simp only [Option.map_some]
  unfold Pool.tagExisting
  rw [show P.eType (Int.ofNat c) = _ from hEl.eType hsz.1, Out.ok_bind]
  cases w with
  | plain => exact ⟨P, rfl, rfl⟩
  | int32 v =>
    replace hfit : D.type c = INT32 := hfit
    rw [hfit] at hgc ⊢
    simp only [if_true]
    exact hwr _ (by simp [GoodVal, is4, isINT32] at hgc; simp; omega)
  | int64 v =>
    replace hfit : D.type c = INT64 := hfit
    rw [hfit] at hgc ⊢
    simp only [if_true]
    exact hwr _ (by simp [GoodVal, is4, isINT32, fixedSize] at hgc; simp; omega)
  | time v => exact absurd hfit not_false
  | str v =>
    obtain ⟨m, rfl, hm0⟩ := hok
    replace hfit : D.type c = STRING ∧ (m.takeWhile (· ≠ 0)).length / 4 ≤ ((D.val c).takeWhile (· ≠ 0)).length / 4 := hfit
    rw [hfit.1] at hgc hEl ⊢
    obtain ⟨t1, t2⟩ := kid_text hEl (by omega) hgc
    obtain ⟨l, hl⟩ := cPrefix_mem hm0
    have hlen := congrArg List.length hl
    simp only [List.length_append, List.length_cons] at hlen
    simp only [if_true]
    rw [show P.img.str (Int.ofNat c + 24) = _ from t1, Out.ok_bind, if_neg (by omega)]
    unfold cPrefix
    rw [if_pos (by omega)]
    refine hwr _ ?_
    unfold aa
    rw [List.length_append, List.length_singleton]
    omega
  | sha1 v =>
    obtain ⟨m, rfl, hm0⟩ := hok
    replace hfit : D.type c = SHA1 := hfit
    rw [hfit] at hgc ⊢
    simp only [if_true]
    rw [if_neg (by omega)]
    exact hwr _ (by simp [GoodVal] at hgc; simp; omega)

/-! ### documents -/

/-- an element with one child `x`, a text -/
def solo1 : Pool := poolOf ((bench2 STRING).tagArg demoEnv 0 (.str (some (b8 "A" ++ [0]))))
def solo2 : Out (Pool × Option Int) := solo1.tagSet demoEnv 104 0 (.str (some (b8 "B" ++ [0]))) 9
/-- the child is set to a longer text -/
def solo3 : Out (Pool × Option Int) := (poolOfI solo2).tagSet demoEnv 104 0 (.str (some (b8 "BCDEFGHIJ" ++ [0]))) 9

theorem solo_sess : ∃ D, Sess demoEnv 0x10000 (poolOfI solo2) D ∧ D.symType true 0 = STRING ∧ D.ready true = true ∧ D.syms true ≠ [] ∧ D.forest.at' (.kids 104) = [132] ∧
    (∀ a ∈ D.forest.at' (.kids 104), GoodVal (D.type a) (D.val a)) ∧ D.kidEntries 104 = [⟨0, STRING, b8 "B" ++ [0]⟩] := by
  obtain ⟨D, h, h1, h2, h3⟩ := bench_sess STRING (by simp)
  have hs : D.syms true ≠ [] := by rw [h1]; simp
  have ht : D.symType true 0 = STRING := by unfold Doc.symType; rw [h1]; rfl
  have r1 : (bench2 STRING).tagArg demoEnv 0 (.str (some (b8 "A" ++ [0]))) = .ok (solo1, some 104) := poolOf_eq (by decide +kernel)
  have r2 : solo1.tagSet demoEnv ((104 : Nat) : Int) 0 (.str (some (b8 "B" ++ [0]))) 9 = .ok (poolOfI solo2, some 132) := poolOfI_eq (r := solo2) (by decide +kernel)
  obtain ⟨D1, s1, g, -⟩ := C61_made_partial demoEnv 0x10000 (by decide) (by decide) _ _ D h h2 hs 0 (by unfold Is16; decide) _ 104 r1
  obtain ⟨k, -, k2, -⟩ := g.here
  have hsy : D1.symType true 0 = STRING := by rw [← ht]; unfold Doc.symType; rw [g.syms]
  have hk0 := g.kids.1
  have hkid : D1.kid 104 0 = none := by unfold Doc.kid; rw [hk0]; rfl
  obtain ⟨D2, s2, o2, g2, e2, f2⟩ := C62_set_partial demoEnv 0x10000 (by decide) (by decide) _ _ D1 s1 (by rw [g.ready]; exact h2) (by rw [g.syms]; exact hs) 104 ⟨_, by rw [k2]; simp⟩ (by rw [hk0]; simp) 0 (by unfold Is16; decide)
    (.str (some (b8 "B" ++ [0]))) (by rw [hkid]; intro c hc; cases hc) 9 (by rw [hk0]; simp) _ r2
  have e0 : D1.kidEntries 104 = [] := by unfold Doc.kidEntries; rw [hk0]; rfl
  rw [e0, hsy] at e2
  refine ⟨D2, s2, ?_, by rw [o2.ready, g.ready]; exact h2, by rw [o2.syms, g.syms]; exact hs, ?_, g2, by rw [e2]; decide⟩
  · rw [← hsy]; unfold Doc.symType; rw [o2.syms]
  · obtain ⟨els, V, fl, kp⟩ := sess_keeps (by decide) (by decide) s2
    have hl : (D2.forest.at' (.kids 104)).length = 1 := by
      have := congrArg List.length e2
      simpa [Doc.kidEntries, setKids, setFirst] using this
    have hf := enum_forwards kp.sees kp.lists ((kp.lists.mem 104).1 (o2.elem 104 ⟨_, by rw [k2]; simp⟩).1) (fuel := 9) (by omega)
    rw [show (poolOfI solo2).forwards ((104 : Nat) : Int) 9 0 = .ok [132] by decide +kernel] at hf
    match hx : D2.forest.at' (.kids 104), hl with
    | [a], _ =>
      rw [hx] at hf
      simp only [List.map_cons, List.map_nil, Out.ok.injEq, List.cons.injEq, and_true] at hf
      rw [show a = 132 by have : (132 : Int) = (a : Int) := hf; omega]

/-- an enumeration that is at an element that follows itself never ends -/
theorem forwards_loop {P : Pool} {p x : Int} (h : P.nextChild p x = .ok (some x, x)) : ∀ fuel, P.forwards p fuel x = .ub
  | 0 => rfl
  | n+1 => by
    unfold Pool.forwards
    rw [h, Out.ok_bind]
    simp only
    rw [forwards_loop h n]
    rfl

/-- C62 is false for the only child of an element, where the text needs more room: the call succeeds, but an enumeration of the children never ends. -/
theorem C62_single_false : (∃ D, Sess demoEnv 0x10000 (poolOfI solo2) D ∧ D.symType true 0 = STRING ∧ D.ready true = true ∧ D.forest.at' (.kids 104) = [132] ∧ D.kidEntries 104 = [⟨0, STRING, b8 "B" ++ [0]⟩]) ∧
    ∃ Q, (poolOfI solo2).tagSet demoEnv 104 0 (.str (some (b8 "BCDEFGHIJ" ++ [0]))) 9 = .ok (Q, some 132) ∧ ∀ fuel, Q.forwards 104 fuel 0 = .ub := by
  obtain ⟨D, a1, a2, a3, -, a5, -, a7⟩ := solo_sess
  refine ⟨⟨D, a1, a2, a3, a5, a7⟩, poolOfI solo3, poolOfI_eq (r := solo3) (by decide +kernel), fun fuel => ?_⟩
  have n0 : (poolOfI solo3).nextChild 104 0 = .ok (some 160, 160) := by decide +kernel
  have n1 : (poolOfI solo3).nextChild 104 160 = .ok (some 132, 132) := by decide +kernel
  have n2 : (poolOfI solo3).nextChild 104 132 = .ok (some 132, 132) := by decide +kernel
  match fuel with
  | 0 => rfl
  | 1 => unfold Pool.forwards; rw [n0, Out.ok_bind]; rfl
  | n+2 =>
    unfold Pool.forwards
    rw [n0, Out.ok_bind]
    simp only
    unfold Pool.forwards
    rw [n1, Out.ok_bind]
    simp only
    rw [forwards_loop n2 n]
    rfl

/-- an element that has been made becomes the last child of `p` -/
theorem grow_kid {E : Env} {maxSize : Nat} (h1 : 0x4000 ≤ maxSize) (h2 : maxSize < 2147483648) {P P1 Q : Pool} {D : Doc} (h : Sess E maxSize P D) (hr : D.ready true = true) (hs : D.syms true ≠ []) {id : Int} (hid : Is16 id)
    {w : TagArg} {o p : Nat} (hp : D.forest.Elem p) (hw : P.tagArg E id w = .ok (P1, some o)) (ha : P1.add p (some (o : Int)) = .ok Q) :
    ∃ D', Sess E maxSize Q D' ∧ D'.forest.at' (.kids p) = D.forest.at' (.kids p) ++ [o] ∧ (∀ q, q ≠ p → D'.forest.at' (.kids q) = D.forest.at' (.kids q)) ∧ D'.id o = id ∧ D'.type o = newType w (D.symType true id) ∧
      GoodVal (D'.type o) (D'.val o) ∧ (∀ e, D.forest.Elem e → D'.forest.Elem e ∧ D'.id e = D.id e ∧ D'.type e = D.type e ∧ D'.val e = D.val e) ∧ D'.ready = D.ready ∧ D'.syms = D.syms := by
  obtain ⟨k, t, v, n, bs, a1, a2, a3, hk, ho, a6, a7, a8, a9, a10⟩ := tagArg_spec h1 h2 h hid hr hs hw
  have hl : (D.plus k o true id t v).forest.at' (.loose k) = [o] := if_pos rfl
  have htag : (D.plus k o true id t v).forest.tag o = true := if_pos rfl
  have hhome : (D.plus k o true id t v).forest.home p o = .kids p := by unfold Forest.home; rw [htag]; rfl
  have hst := Step.add (F := (D.plus k o true id t v).forest) (p := p) (t := o) (k := k) (plus_elem hk hp) (by rw [hl]; simp)
  have hss := Sess.step a10 hst ha
  refine ⟨_, hss, ?_⟩
  rw [hhome, hl]
  have hkp : (D.plus k o true id t v).forest.at' (.kids p) = D.forest.at' (.kids p) := by rw [plus_at, if_neg (by simp)]
  rw [hkp, show fromElem o [o] = [o] by simp [fromElem]]
  have hat : ∀ q, (((D.plus k o true id t v).forest.put (.kids p) (D.forest.at' (.kids p) ++ [o])).put (.loose k) []).at' q = if q = .kids p then D.forest.at' (.kids p) ++ [o] else D.forest.at' q := by
    intro q
    rw [put_at, put_at, plus_at]
    by_cases c1 : q = .loose k
    · subst c1; rw [if_pos rfl, if_neg (by simp), hk]
    · rw [if_neg c1, if_neg c1]
  have hne : ∀ e, D.forest.Elem e → e ≠ o := fun e he hc => ho (hc ▸ he)
  refine ⟨?_, fun q hq => ?_, if_pos rfl, ?_, ?_, fun e he => ⟨?_, if_neg (hne e he), if_neg (hne e he), if_neg (hne e he)⟩, rfl, rfl⟩
  · show Forest.at' _ _ = _
    rw [hat, if_pos rfl]
  · show Forest.at' _ _ = _
    rw [hat, if_neg (by simpa using hq)]
  · rw [← newType_spec a1 a2]; exact if_pos rfl
  · simp only [Doc.plus, if_true]; exact a7
  · obtain ⟨q, hq⟩ := he
    refine ⟨q, ?_⟩
    show e ∈ Forest.at' _ _
    rw [hat]
    split
    · next hc => rw [hc] at hq; simp [hq]
    · exact hq

/-- the element gets a second child, and the first child gets one -/
def pair1 : Out (Pool × Option Nat) := (poolOfI solo2).tagArg demoEnv 0 (.str (some (b8 "D" ++ [0])))
def pair2 : Pool := poolOf' ((poolOf pair1).add ((104 : Nat) : Int) (some ((160 : Nat) : Int)))
def pair3 : Out (Pool × Option Nat) := pair2.tagArg demoEnv 0 (.str (some (b8 "E" ++ [0])))
def pair4 : Pool := poolOf' ((poolOf pair3).add ((132 : Nat) : Int) (some ((188 : Nat) : Int)))
/-- the first child is set to a longer text -/
def pair5 : Out (Pool × Option Int) := pair4.tagSet demoEnv ((104 : Nat) : Int) 0 (.str (some (b8 "BCDEFGHIJ" ++ [0]))) 9

theorem pair_sess : ∃ D, Sess demoEnv 0x10000 pair4 D ∧ D.symType true 0 = STRING ∧ D.ready true = true ∧ D.syms true ≠ [] ∧ D.forest.at' (.kids 104) = [132, 160] ∧ D.forest.at' (.kids 132) = [188] ∧
    (∀ a ∈ D.forest.at' (.kids 104), GoodVal (D.type a) (D.val a)) ∧ D.kid 104 0 = some 132 := by
  obtain ⟨D, h, ht, hr, hs, hk, hg, he⟩ := solo_sess
  have i16 : Is16 0 := by unfold Is16; decide
  have r1 : (poolOfI solo2).tagArg demoEnv 0 (.str (some (b8 "D" ++ [0]))) = .ok (poolOf pair1, some 160) := poolOf_eq (r := pair1) (by decide +kernel)
  have r2 : (poolOf pair1).add ((104 : Nat) : Int) (some ((160 : Nat) : Int)) = .ok pair2 := poolOf'_eq (by decide +kernel)
  have r3 : pair2.tagArg demoEnv 0 (.str (some (b8 "E" ++ [0]))) = .ok (poolOf pair3, some 188) := poolOf_eq (r := pair3) (by decide +kernel)
  have r4 : (poolOf pair3).add ((132 : Nat) : Int) (some ((188 : Nat) : Int)) = .ok pair4 := poolOf'_eq (by decide +kernel)
  obtain ⟨els, V, fl, k⟩ := sess_keeps (by decide) (by decide) h
  have hp : D.forest.Elem 104 := by
    obtain ⟨q, hq⟩ := (k.lists.mem 104).2 (k.lists.own 104 16 (by rw [show lst 16 104 = .kids 104 from rfl, hk]; simp))
    exact ⟨q, hq⟩
  obtain ⟨D1, s1, b2, b3, b4, b5, b6, b7, b8', b9⟩ := grow_kid (by decide) (by decide) h hr hs i16 hp r1 r2
  have e132 : D.forest.Elem 132 := ⟨_, by rw [hk]; simp⟩
  obtain ⟨D2, s2, c2, c3, c4, c5, c6, c7, c8, c9⟩ := grow_kid (by decide) (by decide) s1 (by rw [b8']; exact hr) (by rw [b9]; exact hs) i16 (b7 132 e132).1 r3 r4
  have k132 : D.forest.at' (.kids 132) = [] := by
    have hf := enum_forwards k.sees k.lists ((k.lists.mem 132).1 e132) (fuel := (D.forest.at' (.kids 132)).length + 2) (by omega)
    match hx : D.forest.at' (.kids 132) with
    | [] => rfl
    | a :: l =>
      rw [hx] at hf
      unfold Pool.forwards at hf
      rw [show (poolOfI solo2).nextChild ((132 : Nat) : Int) 0 = .ok (none, 0) by decide +kernel, Out.ok_bind] at hf
      cases hf
  have e160 : D1.forest.Elem 160 := ⟨_, by rw [b2]; simp⟩
  have hkk : D2.forest.at' (.kids 104) = [132, 160] := by rw [c3 104 (by decide), b2, hk]; rfl
  have hid : D2.id 132 = 0 := by
    rw [(c7 132 (b7 132 e132).1).2.1, (b7 132 e132).2.1]
    have : D.kidEntries 104 = [⟨D.id 132, D.type 132, readable (D.type 132) (D.val 132)⟩] := by unfold Doc.kidEntries; rw [hk]; rfl
    rw [this] at he
    simp only [List.cons.injEq, Entry.mk.injEq, and_true] at he
    exact he.1
  refine ⟨D2, s2, ?_, by rw [c8, b8']; exact hr, by rw [c9, b9]; exact hs, hkk, by rw [c2, b3 132 (by decide), k132]; rfl, ?_, ?_⟩
  · rw [← ht]; unfold Doc.symType; rw [c9, b9]
  · rw [hkk]
    intro a ha
    simp only [List.mem_cons, List.not_mem_nil, or_false] at ha
    rcases ha with rfl | rfl
    · have := c7 132 (b7 132 e132).1
      rw [this.2.2.1, this.2.2.2, (b7 132 e132).2.2.1, (b7 132 e132).2.2.2]
      exact hg 132 (by rw [hk]; simp)
    · have := c7 160 e160
      rw [this.2.2.1, this.2.2.2]
      exact b6
  · unfold Doc.kid
    rw [hkk, List.find?_cons_of_pos (by simp [hid])]

/-- the hypotheses of `C62_set_partial` are met: the first child of two is replaced by one with a longer text -/
example : ∃ Q, pair4.tagSet demoEnv 104 0 (.str (some (b8 "BCDEFGHIJ" ++ [0]))) 9 = .ok (Q, some 132) ∧ ∃ t, readKid Q 104 0 10 = .ok (some ⟨t, b8 "BCDEFGHIJ" ++ [0]⟩) := by
  obtain ⟨D, h, ht, hr, hs, hk, -, hg, hc⟩ := pair_sess
  have r5 : pair4.tagSet demoEnv ((104 : Nat) : Int) 0 (.str (some (b8 "BCDEFGHIJ" ++ [0]))) 9 = .ok (poolOfI pair5, some 132) := poolOfI_eq (r := pair5) (by decide +kernel)
  obtain ⟨els, V, fl, k⟩ := sess_keeps (by decide) (by decide) h
  have hp : D.forest.Elem 104 := (k.lists.mem 104).2 (k.lists.own 104 16 (by rw [show lst 16 104 = .kids 104 from rfl, hk]; simp))
  refine ⟨_, r5, ?_⟩
  exact (C62_value demoEnv 0x10000 (by decide) (by decide) _ _ D h hr hs 104 hp hg 0 (by unfold Is16; decide) (.str (some (b8 "BCDEFGHIJ" ++ [0]))) (fun h => nomatch h)
    (fun c _ => ⟨Or.inr (by rw [hk]; decide), fun v h => nomatch h⟩) 9 (by rw [hk]; decide) _ r5 10 (by decide)).1

/-- C62 is false for the element that is returned: where the child is replaced, it is the old one, which is no child any more and has the old value. -/
theorem C62_returned_false : (∃ D, Sess demoEnv 0x10000 pair4 D ∧ D.symType true 0 = STRING ∧ D.ready true = true ∧ D.forest.at' (.kids 104) = [132, 160]) ∧
    ∃ Q, pair4.tagSet demoEnv 104 0 (.str (some (b8 "BCDEFGHIJ" ++ [0]))) 9 = .ok (Q, some 132) ∧ Q.forwards 104 9 0 = .ok [216, 160] ∧ elemValue Q 132 = .ok ⟨STRING, b8 "B" ++ [0]⟩ := by
  obtain ⟨D, h, ht, hr, -, hk, -⟩ := pair_sess
  exact ⟨⟨D, h, ht, hr, hk⟩, _, poolOfI_eq (r := pair5) (by decide +kernel), by decide +kernel, by decide +kernel⟩

/-- C62 is false for what is below the child: where it is replaced, its children are lost. -/
theorem C62_subtree_false : (∃ D, Sess demoEnv 0x10000 pair4 D ∧ D.symType true 0 = STRING ∧ D.ready true = true ∧ D.forest.at' (.kids 104) = [132, 160] ∧ D.forest.at' (.kids 132) = [188]) ∧
    ∃ Q, pair4.tagSet demoEnv 104 0 (.str (some (b8 "BCDEFGHIJ" ++ [0]))) 9 = .ok (Q, some 132) ∧ Q.find 104 16 0 9 = .ok (some 216) ∧ Q.forwards 216 9 0 = .ok [] := by
  obtain ⟨D, h, ht, hr, -, hk, hk', -⟩ := pair_sess
  exact ⟨⟨D, h, ht, hr, hk, hk'⟩, _, poolOfI_eq (r := pair5) (by decide +kernel), by decide +kernel, by decide +kernel⟩

/-- an element with a child, a time, and a detached element -/
def clk1 : Out (Pool × Option Nat) := (bench2 UNIX_TIME).tagArg demoEnv 0 (.time 5)
def clk2 : Out (Pool × Option Int) := (poolOf clk1).tagSet demoEnv ((104 : Nat) : Int) 0 (.time 7) 9
def clk3 : Out (Pool × Option Nat) := (poolOfI clk2).tagArg demoEnv 0 (.time 9)
/-- the time is set again -/
def clk4 : Out (Pool × Option Int) := (poolOf clk3).tagSet demoEnv ((104 : Nat) : Int) 0 (.time 11) 9

theorem clk_sess : ∃ D, Sess demoEnv 0x10000 (poolOf clk3) D ∧ D.symType true 0 = UNIX_TIME ∧ D.ready true = true ∧ D.forest.Elem 160 := by
  obtain ⟨D, h, h1, h2, h3⟩ := bench_sess UNIX_TIME (by simp)
  have hs : D.syms true ≠ [] := by rw [h1]; simp
  have ht : D.symType true 0 = UNIX_TIME := by unfold Doc.symType; rw [h1]; rfl
  have i16 : Is16 0 := by unfold Is16; decide
  have r1 : (bench2 UNIX_TIME).tagArg demoEnv 0 (.time 5) = .ok (poolOf clk1, some 104) := poolOf_eq (r := clk1) (by decide +kernel)
  have r2 : (poolOf clk1).tagSet demoEnv ((104 : Nat) : Int) 0 (.time 7) 9 = .ok (poolOfI clk2, some 132) := poolOfI_eq (r := clk2) (by decide +kernel)
  have r3 : (poolOfI clk2).tagArg demoEnv 0 (.time 9) = .ok (poolOf clk3, some 160) := poolOf_eq (r := clk3) (by decide +kernel)
  obtain ⟨D1, s1, g, -⟩ := C61_made_partial demoEnv 0x10000 (by decide) (by decide) _ _ D h h2 hs 0 i16 _ 104 r1
  obtain ⟨k, -, k2, -⟩ := g.here
  have hk0 := g.kids.1
  have hkid : D1.kid 104 0 = none := by unfold Doc.kid; rw [hk0]; rfl
  obtain ⟨D2, s2, o2, -⟩ := C62_set_partial demoEnv 0x10000 (by decide) (by decide) _ _ D1 s1 (by rw [g.ready]; exact h2) (by rw [g.syms]; exact hs) 104 ⟨_, by rw [k2]; simp⟩ (by rw [hk0]; simp) 0 i16
    (.time 7) (by rw [hkid]; intro c hc; cases hc) 9 (by rw [hk0]; simp) _ r2
  obtain ⟨D3, s3, g3, -⟩ := C61_made_partial demoEnv 0x10000 (by decide) (by decide) _ _ D2 s2 (by rw [o2.ready, g.ready]; exact h2) (by rw [o2.syms, g.syms]; exact hs) 0 i16 _ 160 r3
  obtain ⟨k', -, k2', -⟩ := g3.here
  refine ⟨D3, s3, ?_, by rw [g3.ready, o2.ready, g.ready]; exact h2, ⟨_, by rw [k2']; simp⟩⟩
  rw [← ht]; unfold Doc.symType; rw [g3.syms, o2.syms, g.syms]

/-- C62 is false for a time that is set again: eight bytes are stored where the child has four, and the next element in memory is damaged. Here it is
a detached one, which could have been added to the element before and cannot be added any more. -/
theorem C62_time_false : (∃ D, Sess demoEnv 0x10000 (poolOf clk3) D ∧ D.symType true 0 = UNIX_TIME ∧ D.ready true = true ∧ D.forest.Elem 160) ∧
    (poolOf' ((poolOf clk3).add 104 (some 160))).forwards 104 9 0 = .ok [132, 160] ∧
    ∃ Q, (poolOf clk3).tagSet demoEnv 104 0 (.time 11) 9 = .ok (Q, some 132) ∧ (poolOf' (Q.add 104 (some 160))).forwards 104 9 0 = .ok [132] :=
  ⟨clk_sess, by decide +kernel, _, poolOfI_eq (r := clk4) (by decide +kernel), by decide +kernel⟩

/-- the hypotheses of `C62_makes` are met, and of `C62_changes` -/
example : ∃ Q o, pair4.tagSet demoEnv 160 0 (.str (some (b8 "new" ++ [0]))) 9 = .ok (Q, some o) := by
  obtain ⟨D, h, ht, hr, hs, hk, -, hg, hc⟩ := pair_sess
  obtain ⟨els, V, fl, k⟩ := sess_keeps (by decide) (by decide) h
  have h160 : D.forest.Elem 160 := ⟨.kids 104, by rw [hk]; simp⟩
  have k160 : D.forest.at' (.kids 160) = [] := by
    have hf := enum_forwards k.sees k.lists ((k.lists.mem 160).1 h160) (fuel := (D.forest.at' (.kids 160)).length + 2) (by omega)
    match hx : D.forest.at' (.kids 160) with
    | [] => rfl
    | a :: l =>
      rw [hx] at hf
      unfold Pool.forwards at hf
      rw [show pair4.nextChild ((160 : Nat) : Int) 0 = .ok (none, 0) by decide +kernel, Out.ok_bind] at hf
      cases hf
  exact C62_makes demoEnv rfl (fun _ => rfl) 0x10000 (by decide) (by decide) pair4 D h hr hs 160 h160 0 (by unfold Is16; decide) (.str (some (b8 "new" ++ [0]))) (by unfold Doc.kid; rw [k160]; rfl) (by rw [ht]; rfl) ⟨_, rfl, by simp⟩ 9 (by rw [k160]; simp)
    (by decide +kernel)

example : ∃ Q, (poolOfI solo2).tagSet demoEnv 104 0 (.str (some (b8 "C" ++ [0]))) 9 = .ok (Q, some 132) := by
  obtain ⟨D, h, ht, hr, hs, hk, hg, he⟩ := solo_sess
  obtain ⟨els, V, fl, k⟩ := sess_keeps (by decide) (by decide) h
  have hp : D.forest.Elem 104 := (k.lists.mem 104).2 (k.lists.own 104 16 (by rw [show lst 16 104 = .kids 104 from rfl, hk]; simp))
  have : D.kidEntries 104 = [⟨D.id 132, D.type 132, readable (D.type 132) (D.val 132)⟩] := by unfold Doc.kidEntries; rw [hk]; rfl
  rw [this] at he
  simp only [List.cons.injEq, Entry.mk.injEq, and_true] at he
  have hlen : ((D.val 132).takeWhile (· ≠ 0)).length = 1 := by
    have h3 := he.2.2
    rw [he.2.1] at h3
    have := congrArg List.length h3
    simpa [readable, b8] using this
  obtain ⟨Q, hQ, -⟩ := C62_changes demoEnv 0x10000 (by decide) (by decide) _ D h 104 hp hg 0 (.str (some (b8 "C" ++ [0]))) 132 (by unfold Doc.kid; rw [hk, List.find?_cons_of_pos (by simp [he.1])])
    ⟨he.2.1, by rw [hlen]; decide⟩ ⟨_, rfl, by simp⟩ 9 (by rw [hk]; decide)
  exact ⟨Q, hQ⟩

end BX
