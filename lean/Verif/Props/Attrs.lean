import Verif.Lemmas.Attrs
import Verif.Props.Dict
/-
C37: reading the attributes of an element of a writable document.
-/
namespace BX
open XBT Spec

theorem withAttr_same {D : Doc} {p o : Nat} {id : Int} {t : XBT} {v : List UInt8} (ho : ¬ D.forest.Elem o) : SameBut p D (D.withAttr p o id t v) := by
  refine ⟨fun q hq => if_neg hq, fun e he => ?_, rfl, rfl, rfl⟩
  have hne : e ≠ o := fun h => ho (h ▸ he)
  exact ⟨if_neg hne, if_neg hne, if_neg hne, if_neg hne⟩

theorem withAttr_attrs (D : Doc) (p o : Nat) (id : Int) (t : XBT) (v : List UInt8) : (D.withAttr p o id t v).forest.at' (.attrs p) = D.forest.at' (.attrs p) ++ [o] := if_pos rfl

theorem withAttr_entries {D : Doc} {p o : Nat} {id : Int} {t : XBT} {v : List UInt8} (ho : ¬ D.forest.Elem o) : (D.withAttr p o id t v).entries p = D.entries p ++ [⟨id, t, readable t v⟩] := by
  unfold Doc.entries
  rw [withAttr_attrs, List.map_append]
  congr 1
  · refine List.map_congr_left fun a ha => ?_
    obtain ⟨-, h1, h2, h3⟩ := (withAttr_same (p := p) (id := id) (t := t) (v := v) ho).elem a ⟨_, ha⟩
    rw [h1, h2, h3]
  · simp [Doc.withAttr]

theorem SameBut.refl (p : Nat) (D : Doc) : SameBut p D D := ⟨fun _ _ => rfl, fun _ _ => ⟨rfl, rfl, rfl, rfl⟩, rfl, rfl, rfl⟩

theorem SameBut.trans {p : Nat} {D D' D'' : Doc} (h : SameBut p D D') (h' : SameBut p D' D'') (hE : ∀ e, D.forest.Elem e → D'.forest.Elem e) : SameBut p D D'' := by
  refine ⟨fun q hq => (h'.lists q hq).trans (h.lists q hq), fun e he => ?_, h'.root.trans h.root, h'.syms.trans h.syms, h'.ready.trans h.ready⟩
  obtain ⟨a1, a2, a3, a4⟩ := h.elem e he
  obtain ⟨b1, b2, b3, b4⟩ := h'.elem e (hE e he)
  exact ⟨b1.trans a1, b2.trans a2, b3.trans a3, b4.trans a4⟩

theorem withAttr_elem {D : Doc} {p o : Nat} {id : Int} {t : XBT} {v : List UInt8} {e : Nat} (he : D.forest.Elem e) : (D.withAttr p o id t v).forest.Elem e := by
  obtain ⟨q, hq⟩ := he
  refine ⟨q, ?_⟩
  show e ∈ if q = .attrs p then D.forest.at' q ++ [o] else D.forest.at' q
  split
  · exact List.mem_append_left _ hq
  · exact hq

theorem attrs_spec {E : Env} {maxSize : Nat} (h1 : 0x4000 ≤ maxSize) (h2 : maxSize < 2147483648) {p : Nat} : ∀ (ws : List (Int × AttrArg)) {P Q : Pool} {D : Doc} {rs : List Bool}, Sess E maxSize P D →
    D.forest.Elem p → D.ready false = true → D.syms false ≠ [] → (∀ a ∈ D.forest.at' (.attrs p), GoodVal (D.type a) (D.val a)) → (∀ x ∈ ws, Is16 x.1) → P.attrs E p ws = .ok (Q, rs) →
    ∃ D', Sess E maxSize Q D' ∧ SameBut p D D' ∧ (∀ e, D.forest.Elem e → D'.forest.Elem e) ∧ D'.entries p = D.entries p ++ written D ws rs ∧
      (∀ a ∈ D'.forest.at' (.attrs p), GoodVal (D'.type a) (D'.val a)) ∧ rs.length = ws.length ∧
      ∀ x ∈ ws.zip rs, x.2 = true → x.1.2.nothing = false → x.1.2.accepts (D.symType false x.1.1) = true
  | [], P, Q, D, rs, h, hp, hr, hs, hg, _, hw => by
    simp only [Pool.attrs, Out.pure_eq, Out.ok.injEq, Prod.mk.injEq] at hw
    obtain ⟨rfl, rfl⟩ := hw
    exact ⟨D, h, SameBut.refl p D, fun _ h => h, by simp [written], hg, rfl, by simp⟩
  | (id, w) :: ws, P, Q, D, rs, h, hp, hr, hs, hg, hid, hw => by
    simp only [Pool.attrs] at hw
    obtain ⟨⟨P1, r⟩, hw1, hw⟩ := Out.bind_eq_ok hw
    obtain ⟨⟨P2, rs'⟩, hw2, hw⟩ := Out.bind_eq_ok hw
    simp only [Out.pure_eq, Out.ok.injEq, Prod.mk.injEq] at hw
    obtain ⟨rfl, rfl⟩ := hw
    have hsp := attr_spec h1 h2 h hp (hid (id, w) (by simp)) hr hs hw1
    have hw2 : P1.attrs E p ws = .ok (P2, rs') := hw2
    by_cases hc : (r && !w.nothing) = true
    · rw [if_pos hc] at hsp
      obtain ⟨o, v, ho, ha, hgv, hrd, hs1⟩ := hsp
      have hg1 : ∀ a ∈ (D.withAttr p o id (D.symType false id) v).forest.at' (.attrs p), GoodVal ((D.withAttr p o id (D.symType false id) v).type a) ((D.withAttr p o id (D.symType false id) v).val a) := by
        intro a ha
        rw [withAttr_attrs] at ha
        rcases List.mem_append.1 ha with ha | ha
        · obtain ⟨-, -, e2, e3⟩ := (withAttr_same (p := p) (id := id) (t := D.symType false id) (v := v) ho).elem a ⟨_, ha⟩
          rw [e2, e3]; exact hg a ha
        · rw [List.mem_singleton.1 ha]
          show GoodVal (if o = o then _ else _) (if o = o then _ else _)
          rw [if_pos rfl, if_pos rfl]; exact hgv
      obtain ⟨D', d1, d2, d3, d4, d5, d6, d7⟩ := attrs_spec h1 h2 ws hs1 (withAttr_elem hp) hr hs hg1 (fun x hx => hid x (List.mem_cons_of_mem _ hx)) hw2
      have hwr : ∀ ws rs, written (D.withAttr p o id (D.symType false id) v) ws rs = written D ws rs := by
        intro ws
        induction ws with
        | nil => intro rs; cases rs <;> rfl
        | cons x ws ih =>
          intro rs
          cases rs with
          | nil => rfl
          | cons r rs => simp only [written, ih]; rfl
      refine ⟨D', d1, SameBut.trans (withAttr_same ho) d2 (fun e he => withAttr_elem he), fun e he => d3 e (withAttr_elem he), ?_, d5, by simp [d6], ?_⟩
      · rw [d4, withAttr_entries ho, hwr, written, if_pos hc, hrd, List.append_assoc]
      · intro x hx
        rcases List.mem_cons.1 hx with rfl | hx
        · exact fun _ _ => ha
        · exact d7 x hx
    · rw [if_neg hc] at hsp
      obtain ⟨D', d1, d2, d3, d4, d5, d6, d7⟩ := attrs_spec h1 h2 ws hsp hp hr hs hg (fun x hx => hid x (List.mem_cons_of_mem _ hx)) hw2
      refine ⟨D', d1, d2, d3, ?_, d5, by simp [d6], ?_⟩
      · rw [d4, written, if_neg hc]; rfl
      · intro x hx
        rcases List.mem_cons.1 hx with rfl | hx
        · intro e1 e2
          simp only at e1 e2
          rw [e1, e2] at hc; exact absurd rfl hc
        · exact d7 x hx

/-! ### the property -/

/-- C37 (partial): after any history of a writable document whose symbols have been registered, any number of attribute writes of any kind on
an element appends exactly the written values to the attributes of that element, and leaves all lists, identifications, types and values of
everything else as they were. Reading an attribute afterwards gives the type and the value of the FIRST attribute with that identification.
What is missing: the claim says the last write, see `C37_last_false`. -/
theorem C37_first_partial (E : Env) (maxSize : Nat) (h1 : 0x4000 ≤ maxSize) (h2 : maxSize < 2147483648) (P Q : Pool) (D : Doc) (h : Sess E maxSize P D) (p : Nat) (hp : D.forest.Elem p)
    (hr : D.ready false = true) (hs : D.syms false ≠ []) (hg : ∀ a ∈ D.forest.at' (.attrs p), GoodVal (D.type a) (D.val a)) (ws : List (Int × AttrArg)) (hid : ∀ x ∈ ws, Is16 x.1) (rs : List Bool)
    (hw : P.attrs E p ws = .ok (Q, rs)) :
    ∃ D', Sess E maxSize Q D' ∧ SameBut p D D' ∧ D'.entries p = D.entries p ++ written D ws rs ∧ (∀ a ∈ D'.forest.at' (.attrs p), GoodVal (D'.type a) (D'.val a)) ∧
      ∀ id fuel, (D.entries p ++ written D ws rs).length < fuel →
        readAttr Q p id fuel = .ok (((D.entries p ++ written D ws rs).find? (fun x => x.id = id)).map fun x => (x.type, x.value)) := by
  obtain ⟨D', d1, d2, d3, d4, d5, -, -⟩ := attrs_spec h1 h2 ws h hp hr hs hg hid hw
  refine ⟨D', d1, d2, d4, d5, fun id fuel hf => ?_⟩
  obtain ⟨els, V, fl, k⟩ := sess_keeps h1 h2 d1
  rw [← d4]
  refine readAttr_spec k ((k.lists.mem p).1 (d3 p hp)) d5 id ?_
  rw [← d4] at hf
  simpa [Doc.entries] using hf

/-- C37: when an attribute has not been there before and is written once, reading gives what has been written, whatever else is written before
and after. -/
theorem C37_once (E : Env) (maxSize : Nat) (h1 : 0x4000 ≤ maxSize) (h2 : maxSize < 2147483648) (P Q : Pool) (D : Doc) (h : Sess E maxSize P D) (p : Nat) (hp : D.forest.Elem p)
    (hr : D.ready false = true) (hs : D.syms false ≠ []) (hg : ∀ a ∈ D.forest.at' (.attrs p), GoodVal (D.type a) (D.val a)) (before after : List (Int × AttrArg)) (id : Int) (w : AttrArg)
    (hid : ∀ x ∈ before ++ (id, w) :: after, Is16 x.1) (hn : w.nothing = false) (hnew : ∀ e ∈ D.entries p, e.id ≠ id) (hb : ∀ x ∈ before, x.1 ≠ id)
    (rs : List Bool) (hw : P.attrs E p (before ++ (id, w) :: after) = .ok (Q, rs)) (hok : rs[before.length]? = some true)
    (fuel : Nat) (hf : (D.entries p).length + before.length + after.length + 1 < fuel) : readAttr Q p id fuel = .ok (some (D.symType false id, argValue w)) := by
  obtain ⟨D', -, -, -, -, h4⟩ := C37_first_partial E maxSize h1 h2 P Q D h p hp hr hs hg _ hid rs hw
  have hlen : ∀ (ws : List (Int × AttrArg)) (rs : List Bool), (written D ws rs).length ≤ ws.length := by
    intro ws
    induction ws with
    | nil => intro rs; cases rs <;> simp [written]
    | cons x ws ih =>
      intro rs
      cases rs with
      | nil => simp [written]
      | cons r rs =>
        simp only [written, List.length_append, List.length_cons]
        have := ih rs
        split <;> simp <;> omega
  rw [h4 id fuel (by have := hlen (before ++ (id, w) :: after) rs; simp at this ⊢; omega)]
  have hfind : ∀ (before : List (Int × AttrArg)) (rs : List Bool), (∀ x ∈ before, x.1 ≠ id) → rs[before.length]? = some true →
      (written D (before ++ (id, w) :: after) rs).find? (fun x => x.id = id) = some ⟨id, D.symType false id, argValue w⟩ := by
    intro before
    induction before with
    | nil =>
      intro rs _ hok
      cases rs with
      | nil => simp at hok
      | cons r rs =>
        simp at hok
        subst hok
        simp [written, hn]
    | cons x before ih =>
      intro rs hb hok
      cases rs with
      | nil => simp at hok
      | cons r rs =>
        simp only [List.cons_append, written]
        rw [List.find?_append, ih rs (fun y hy => hb y (List.mem_cons_of_mem _ hy)) (by simpa using hok)]
        have hx := hb x (by simp)
        split
        · simp [hx]
        · rfl
  rw [List.find?_append, hfind before rs hb hok, List.find?_eq_none.2 (fun e he => by simpa using hnew e he)]
  rfl

/-- C37: a write that is refused changes nothing in the document. -/
theorem C37_refused (E : Env) (maxSize : Nat) (h1 : 0x4000 ≤ maxSize) (h2 : maxSize < 2147483648) (P Q : Pool) (D : Doc) (h : Sess E maxSize P D) (p : Nat) (hp : D.forest.Elem p)
    (hr : D.ready false = true) (hs : D.syms false ≠ []) (id : Int) (hid : Is16 id) (w : AttrArg) (hw : P.attr E p id w = .ok (Q, false)) : Sess E maxSize Q D := by
  have := attr_spec h1 h2 h hp hid hr hs hw
  simpa using this

/-- C37: a write of the type of its symbol succeeds when there is room in the file. -/
theorem C37_succeeds (E : Env) (maxSize : Nat) (h1 : 0x4000 ≤ maxSize) (h2 : maxSize < 2147483648) (P : Pool) (D : Doc) (h : Sess E maxSize P D) (p : Nat) (hp : D.forest.Elem p) (id : Int) (hid : Is16 id)
    (w : AttrArg) (hr : D.ready false = true) (hs : D.syms false ≠ []) (ha : w.accepts (D.symType false id) = true) (bs : List UInt8) (hb : w.bytes = .ok bs)
    (room : P.alloc + w.size + 64 ≤ P.limit) : ∃ Q, P.attr E p id w = .ok (Q, true) := attr_succeeds h1 h2 h hp hid hr hs ha hb room

/-- C37: the typed accessors give the address of the stored bytes: after any history, for an attribute whose type is the one of its symbol, `getInt32`
points to the 4 bytes of a number, `getInt64` and `getUInt64` to the 8 bytes, `getGUID` to the 16 bytes, `getStr` to the text with its end. -/
theorem C37_typed (E : Env) (maxSize : Nat) (h1 : 0x4000 ≤ maxSize) (h2 : maxSize < 2147483648) (P : Pool) (D : Doc) (h : Sess E maxSize P D) (p : Nat) (hp : D.forest.Elem p)
    (hr : D.ready false = true) (hs : D.syms false ≠ []) (hg : ∀ a ∈ D.forest.at' (.attrs p), GoodVal (D.type a) (D.val a)) (id : Int) (x : Entry) (hx : (D.entries p).find? (fun x => x.id = id) = some x)
    (hty : x.type = D.symType false id) (g : Getter)
    (hgt : match g with
      | .int32 => is4 x.type = true
      | .float => x.type = FLOAT
      | .int64 => x.type = INT64 ∨ x.type = UNIX_TIME64_MSEC
      | .uint64 => x.type = UINT64
      | .guid => x.type = GUID
      | .str => x.type = STRING
      | .time => False)
    (fuel : Nat) (hf : (D.entries p).length < fuel) : readTyped P p id g x.value.length fuel = .ok (some x.value) := by
  obtain ⟨els, V, fl, k⟩ := sess_keeps h1 h2 h
  have hsz := k.sees.size
  have hpe := (k.lists.mem p).1 hp
  have hf' : (D.forest.at' (lst 20 p)).length < fuel := by
    have : (D.forest.at' (.attrs p)).length < fuel := by simpa [Doc.entries] using hf
    exact this
  have hfd := find_spec k hpe (Or.inr rfl) id (f := 20) hf'
  unfold Doc.entries at hx
  rw [List.find?_map] at hx
  have he : ((fun x : Entry => decide (x.id = id)) ∘ fun a => (⟨D.id a, D.type a, readable (D.type a) (D.val a)⟩ : Entry)) = fun x => decide (D.id x = id) := rfl
  rw [he] at hx
  have hfd : P.find p 20 id fuel = .ok ((List.find? (fun x => decide (D.id x = id)) (D.forest.at' (.attrs p))).map Int.ofNat) := hfd
  unfold readTyped
  rw [hfd, Out.ok_bind]
  cases ha : List.find? (fun x => decide (D.id x = id)) (D.forest.at' (.attrs p)) with
  | none => rw [ha] at hx; cases hx
  | some a =>
    rw [ha] at hx
    simp only [Option.map_some, Option.some.injEq] at hx
    subst hx
    have hmem := List.mem_of_find?_eq_some ha
    have haid : D.id a = id := by have := List.find?_some ha; simpa using this
    have hae := (k.lists.mem a).1 ⟨_, hmem⟩
    have hga := hg a hmem
    obtain ⟨r, -, -, -, -, r5, -⟩ := getData_spec (k.elem a hae) hsz.1 hga
    have hle := readable_le _ hga
    have hhi := (k.elem a hae).hi
    have hst : P.elemSymType (a : Int) = .ok (some (D.type a)) := by
      unfold Pool.elemSymType
      rw [k.sees.flags hae, Out.ok_bind, (k.elem a hae).eId hsz.1, Out.ok_bind]
      have hb : (fl a &&& 1 ≠ 0) = (false = true) := by
        have hbit := k.lists.bit a hae
        rw [k.lists.attrs p a hmem] at hbit
        exact propext hbit
      have hdec : decide (fl a &&& 1 ≠ 0) = false := by simp only [hb]; decide
      rw [hdec, symType_spec k hr hs, haid, ← hty]
    have hpt : P.getPtr (a : Int) g = .ok (some ((a : Int) + 24)) := by
      unfold Pool.getPtr
      rw [hst, Out.ok_bind, (k.elem a hae).eType hsz.1, Out.ok_bind, ofCode_code]
      simp only [Option.some.injEq, Out.pure_eq]
      cases g with
      | int32 => simp only [Option.map_some, Option.getD_some]; rw [if_pos hgt]
      | float => simp only; rw [if_pos hgt]
      | int64 =>
        simp only
        rw [if_pos (hgt.elim Or.inl fun h => Or.inr (Or.inr h))]
      | uint64 => simp only; rw [if_pos hgt]
      | guid => simp only; rw [if_pos hgt]
      | str => simp only; rw [if_pos hgt]
      | time => exact absurd hgt not_false
    show (do let r ← P.getPtr (a : Int) g; _) = _
    rw [hpt, Out.ok_bind]
    simp only
    rw [Img.rd_ok (f := P.img) r5 (by show _ ≤ P.fileSize; omega) _ (by omega) _ rfl]
    rfl

/-! ### a document -/

def poolOfB : Out (Pool × Bool) → Pool
  | .ok (P, _) => P
  | _ => Pool.empty 0

theorem poolOfB_eq {r : Out (Pool × Bool)} {b : Bool} (h : (match r with | .ok (_, x) => x == b | _ => false) = true) : r = .ok (poolOfB r, b) := by
  match r, h with
  | .ok (P, x), h => rw [show x = b by simpa using h]; rfl

/-- a tag `e` and an attribute `raw` -/
def shop1 : Pool := poolOfReg ((Pool.empty 0x8000).register true (b8 "e") NULL)
def shop2 : Pool := poolOfReg (shop1.register false (b8 "raw") HEX)
def shop3 : Pool := poolOfB (shop2.allRegistered demoEnv)
/-- three elements `e` -/
def shop4 : Pool := poolOf (shop3.make demoEnv 0 NULL 0 (tagFlag true) (sizeField NULL 0).length [])
def shop5 : Pool := poolOf (shop4.make demoEnv 0 NULL 0 (tagFlag true) (sizeField NULL 0).length [])
def shop6 : Pool := poolOf (shop5.make demoEnv 0 NULL 0 (tagFlag true) (sizeField NULL 0).length [])

theorem shop_sess : ∃ D, Sess demoEnv 0x8000 shop6 D ∧ D.syms true = [⟨b8 "e", NULL⟩] ∧ D.syms false = [⟨b8 "raw", HEX⟩] ∧ D.ready false = true ∧ D.ready true = true ∧
    (∀ p, D.forest.at' (.attrs p) = []) ∧ (∀ p, D.forest.at' (.kids p) = []) ∧ D.forest.at' (.loose 0) = [116] ∧ D.forest.at' (.loose 1) = [140] ∧ D.forest.at' (.loose 2) = [164] ∧
    D.forest.tag 116 = true ∧ D.forest.tag 140 = true ∧ D.forest.tag 164 = true ∧ D.id 140 = 0 ∧ D.id 164 = 0 := by
  have r1 : (Pool.empty 0x8000).register true (b8 "e") NULL = .ok (shop1, 0) := poolOfReg_eq (by decide +kernel)
  have r2 : shop1.register false (b8 "raw") HEX = .ok (shop2, 0) := poolOfReg_eq (by decide +kernel)
  have r8 : shop2.allRegistered demoEnv = .ok (shop3, true) := poolOfB_eq (by decide +kernel)
  have r9 : shop3.make demoEnv 0 NULL 0 (tagFlag true) (sizeField NULL 0).length [] = .ok (shop4, some 116) := poolOf_eq (by decide +kernel)
  have r10 : shop4.make demoEnv 0 NULL 0 (tagFlag true) (sizeField NULL 0).length [] = .ok (shop5, some 140) := poolOf_eq (by decide +kernel)
  have r11 : shop5.make demoEnv 0 NULL 0 (tagFlag true) (sizeField NULL 0).length [] = .ok (shop6, some 164) := poolOf_eq (by decide +kernel)
  have s1 := Sess.registered (E := demoEnv) (maxSize := 0x8000) Sess.start (by decide) (by decide) (Or.inl (by decide)) r1 (by decide)
  have s2 := Sess.registered s1 (by decide) (by decide) (Or.inl (by decide)) r2 (by decide)
  have s3 := Sess.allRegistered s2 r8
  have s9 := Sess.made (k := 0) s3 ⟨by decide, by decide⟩ (by decide) r9 rfl
  have s10 := Sess.made (k := 1) s9 ⟨by decide, by decide⟩ (by decide) r10 rfl
  have s11 := Sess.made (k := 2) s10 ⟨by decide, by decide⟩ (by decide) r11 rfl
  exact ⟨_, s11, by decide, by decide, by decide, by decide, fun _ => rfl, fun _ => rfl, rfl, rfl, rfl, rfl, rfl, rfl, rfl, rfl⟩

/-- five writes on the first element, one of them refused -/
def shopWrites : List (Int × AttrArg) := [(-5, .int32 (-7)), (-2, .str (some (b8 "pen" ++ [0]))), (-5, .str (some [65, 0])), (0, .hex (some [1, 2, 3, 4, 5]) 3), (-4, .time 1000)]

/-- the hypotheses of `C37_first_partial` and `C37_once` are met, and the values are read -/
example : ∃ D Q, Sess demoEnv 0x8000 shop6 D ∧ D.forest.Elem 116 ∧ D.ready false = true ∧ shop6.attrs demoEnv 116 shopWrites = .ok (Q, [true, true, false, true, true]) ∧
    readAttr Q 116 (-5) 9 = .ok (some (INT32, le32 (-7))) ∧ readAttr Q 116 (-2) 9 = .ok (some (STRING, b8 "pen" ++ [0])) ∧ readAttr Q 116 0 9 = .ok (some (HEX, le32 3 ++ [1, 2, 3])) ∧
    readAttr Q 116 (-4) 9 = .ok (some (UNIX_TIME, le32 1000)) ∧ readAttr Q 116 (-3) 9 = .ok none ∧ readTyped Q 116 (-5) .int32 4 9 = .ok (some (le32 (-7))) := by
  obtain ⟨D, h, -, h2, h3, -, h4, -, h5, -⟩ := shop_sess
  have hE : D.forest.Elem 116 := ⟨.loose 0, by rw [h5]; simp⟩
  have hw : ∃ Q, shop6.attrs demoEnv 116 shopWrites = .ok (Q, [true, true, false, true, true]) := by
    have hc : (match shop6.attrs demoEnv 116 shopWrites with | .ok (_, r) => r == [true, true, false, true, true] | _ => false) = true := by decide +kernel
    match he : shop6.attrs demoEnv 116 shopWrites with
    | .ok (Q, r) => rw [he] at hc; exact ⟨Q, by rw [show r = _ by simpa using hc]⟩
    | .fail => rw [he] at hc; cases hc
    | .ub => rw [he] at hc; cases hc
  obtain ⟨Q, hw⟩ := hw
  have hs : D.syms false ≠ [] := by rw [h2]; simp
  have hg : ∀ a ∈ D.forest.at' (.attrs 116), GoodVal (D.type a) (D.val a) := by rw [h4]; simp
  have hent : D.entries 116 = [] := by unfold Doc.entries; rw [h4]; rfl
  have hwr : written D shopWrites [true, true, false, true, true] =
      [⟨-5, INT32, le32 (-7)⟩, ⟨-2, STRING, b8 "pen" ++ [0]⟩, ⟨0, HEX, le32 3 ++ [1, 2, 3]⟩, ⟨-4, UNIX_TIME, le32 1000⟩] := by
    simp only [shopWrites, written, Doc.symType, h2]; decide
  obtain ⟨D', d1, d2, d3, dg, d4⟩ := C37_first_partial demoEnv 0x8000 (by decide) (by decide) shop6 Q D h 116 hE h3 hs hg shopWrites (by unfold Is16; decide) _ hw
  have hrd := fun id => d4 id 9 (by rw [hent, hwr]; decide)
  rw [hent, hwr] at hrd
  refine ⟨D, Q, h, hE, h3, hw, hrd (-5), hrd (-2), hrd 0, hrd (-4), hrd (-3), ?_⟩
  obtain ⟨els, V, fl, k⟩ := sess_keeps (by decide) (by decide) d1
  have hE' : D'.forest.Elem 116 := ⟨.loose 0, by rw [d2.lists _ (by simp), h5]; simp⟩
  rw [hent, hwr] at d3
  exact C37_typed demoEnv 0x8000 (by decide) (by decide) Q D' d1 116 hE' (by rw [d2.ready]; exact h3) (by rw [d2.syms]; exact hs) dg (-5) ⟨-5, INT32, le32 (-7)⟩ (by rw [d3]; rfl)
    (by simp only [Doc.symType, d2.syms, h2]; rfl) .int32 rfl 9 (by rw [d3]; decide)

/-- C37 is false for the last write: after two successful writes of the same attribute, reading gives the first value. -/
theorem C37_last_false : (∃ D, Sess demoEnv 0x8000 shop6 D ∧ D.forest.Elem 116) ∧ ∃ Q, shop6.attrs demoEnv 116 [(-5, .int32 5), (-5, .int32 7)] = .ok (Q, [true, true]) ∧
    readAttr Q 116 (-5) 9 = .ok (some (INT32, le32 5)) := by
  refine ⟨?_, ?_⟩
  · obtain ⟨D, h, -, -, -, -, -, -, h5, -⟩ := shop_sess
    exact ⟨D, h, .loose 0, by rw [h5]; simp⟩
  · have hc : (match shop6.attrs demoEnv 116 [(-5, .int32 5), (-5, .int32 7)] with | .ok (Q, r) => r == [true, true] && readAttr Q 116 (-5) 9 == .ok (some (INT32, le32 5)) | _ => false) = true := by decide +kernel
    match he : shop6.attrs demoEnv 116 [(-5, .int32 5), (-5, .int32 7)] with
    | .ok (Q, r) =>
      rw [he] at hc
      simp only [Bool.and_eq_true, beq_iff_eq] at hc
      exact ⟨Q, by rw [hc.1], hc.2⟩
    | .fail => rw [he] at hc; cases hc
    | .ub => rw [he] at hc; cases hc

/-- C37 is false for `getTime`: it gives the address of 8 bytes where 4 are stored, so that the value read contains the beginning of the next
element. -/
theorem C37_time_false : ∃ Q, shop6.attrs demoEnv 116 [(-4, .time 1000), (-5, .int32 7)] = .ok (Q, [true, true]) ∧
    ∃ bs, readTyped Q 116 (-4) .time 8 9 = .ok (some bs) ∧ rdI64 bs = 927712936936 := by
  have hc : (match shop6.attrs demoEnv 116 [(-4, .time 1000), (-5, .int32 7)] with
    | .ok (Q, r) => r == [true, true] && (match readTyped Q 116 (-4) .time 8 9 with | .ok (some bs) => rdI64 bs == 927712936936 | _ => false) | _ => false) = true := by decide +kernel
  match he : shop6.attrs demoEnv 116 [(-4, .time 1000), (-5, .int32 7)] with
  | .ok (Q, r) =>
    rw [he] at hc
    simp only [Bool.and_eq_true, beq_iff_eq] at hc
    match hr : readTyped Q 116 (-4) .time 8 9 with
    | .ok (some bs) => rw [hr] at hc; exact ⟨Q, by rw [hc.1], bs, hr, by simpa using hc.2⟩
    | .ok none => rw [hr] at hc; cases hc.2
    | .fail => rw [hr] at hc; cases hc.2
    | .ub => rw [hr] at hc; cases hc.2
  | .fail => rw [he] at hc; cases hc
  | .ub => rw [he] at hc; cases hc

end BX
