import Verif.Lemmas.Edit
/-
Changing values of children.
-/
namespace BX
open XBT Spec

/-- the stored bytes of a new child, with zeros behind them -/
theorem set_value {w : SetArg} {t : XBT} {bs : List UInt8} (ht : w.accepts t = true) (hb : w.bytes = .ok bs) :
    isVarsize t = false ∧ ∃ n, (bs ++ List.replicate n 0).length = (size2 t w.size).toNat ∧ GoodVal t (bs ++ List.replicate n 0) ∧ readable t (bs ++ List.replicate n 0) = setValue w := by
  cases w with
  | plain =>
    simp only [SetArg.accepts, beq_iff_eq] at ht; subst ht
    simp only [SetArg.bytes, Out.ok.injEq] at hb; subst hb
    exact ⟨rfl, 0, rfl, by simp [GoodVal, is4, isINT32, fixedSize], rfl⟩
  | int32 v =>
    simp only [SetArg.bytes, Out.ok.injEq] at hb; subst hb
    simp only [SetArg.accepts] at ht
    cases t <;> first | (exact absurd ht (by decide)) |
      exact ⟨rfl, 0, by simp [size2, SetArg.size], by simp [GoodVal, is4, isINT32], by simp [readable, setValue]⟩
  | int64 v =>
    simp only [SetArg.bytes, Out.ok.injEq] at hb; subst hb
    simp only [SetArg.accepts] at ht
    cases t <;> first | (exact absurd ht (by decide)) |
      exact ⟨rfl, 0, by simp [size2, SetArg.size], by simp [GoodVal, is4, isINT32, fixedSize], by simp [readable, setValue]⟩
  | str v =>
    simp only [SetArg.accepts, beq_iff_eq] at ht; subst ht
    cases v with
    | none => cases hb
    | some m =>
      simp only [SetArg.bytes] at hb
      split at hb
      · cases hb
      · simp only [Out.ok.injEq] at hb; subst hb
        refine ⟨rfl, 1, by simp [size2, SetArg.size]; omega, by simp [GoodVal], ?_⟩
        show ((cPrefix m ++ [0] ++ [0]).takeWhile (· ≠ 0)) ++ [0] = cPrefix m ++ [0]
        rw [List.append_assoc]
        exact congrArg (· ++ [0]) (takeWhile_prefix0 m [0])
  | time v =>
    simp only [SetArg.accepts, beq_iff_eq] at ht; subst ht
    simp only [SetArg.bytes, Out.ok.injEq] at hb; subst hb
    exact ⟨rfl, 0, by simp [size2, SetArg.size], by simp [GoodVal, is4, isINT32], by simp [readable, setValue]⟩
  | sha1 v =>
    simp only [SetArg.accepts, beq_iff_eq] at ht; subst ht
    cases v with
    | none => cases hb
    | some m =>
      simp only [SetArg.bytes] at hb
      split at hb
      · cases hb
      · rename_i hm
        simp only [Out.ok.injEq] at hb; subst hb
        refine ⟨rfl, 4, by simp [size2, SetArg.size]; omega, by simp [GoodVal]; omega, ?_⟩
        show (m.take 20 ++ List.replicate 4 0).take 20 = m.take 20
        rw [List.take_append_of_le_length (by rw [List.length_take]; omega), List.take_take]; simp

/-- a child has been made -/
theorem poolTag_spec {E : Env} {maxSize : Nat} (h1 : 0x4000 ≤ maxSize) (h2 : maxSize < 2147483648) {P Q : Pool} {D : Doc} (h : Sess E maxSize P D) {id : Int} (hid : Is16 id) {w : SetArg} {r : Option Nat}
    (hr : D.ready true = true) (hs : D.syms true ≠ []) (hw : P.poolTag E id w = .ok (Q, r)) :
    match r with
    | none => Sess E maxSize Q D
    | some o => ∃ k v, D.forest.at' (.loose k) = [] ∧ ¬ D.forest.Elem o ∧ w.accepts (D.symType true id) = true ∧ GoodVal (D.symType true id) v ∧ readable (D.symType true id) v = setValue w ∧
        Sess E maxSize Q (D.plus k o true id (D.symType true id) v) := by
  obtain ⟨els, V, fl, k⟩ := sess_keeps h1 h2 h
  unfold Pool.poolTag at hw
  rw [symType_spec k hr hs id, Out.ok_bind] at hw
  simp only at hw
  split at hw
  · rename_i ha
    obtain ⟨bs, hb, hw⟩ := Out.bind_eq_ok hw
    obtain ⟨hv, n, n1, n2, n3⟩ := set_value ha hb
    have hsf : sizeField (D.symType true id) 0 = [] := by unfold sizeField; rw [if_neg (by simp [hv])]
    have hsf' : sizeField (D.symType true id) (size2 (D.symType true id) w.size - 4) = [] := by unfold sizeField; rw [if_neg (by simp [hv])]
    have h0 : (0 : Nat) = (sizeField (D.symType true id) 0).length := by rw [hsf]; rfl
    rw [h0] at hw
    cases r with
    | none => exact Sess.refused (b := true) h hw
    | some o =>
      simp only
      obtain ⟨N, hN⟩ := sess_loose h
      have hpad := make_pad k.sees.ok hw (n := n) (by rw [List.length_append, List.length_replicate] at n1; rw [hsf]; simp; omega)
      have hmd := Sess.made (b := true) h hid (by rw [hsf]; simpa using n1) hpad (hN N (Nat.le_refl _))
      rw [hsf', List.nil_append] at hmd
      refine ⟨N, _, hN N (Nat.le_refl _), ?_, ha, n2, n3, hmd⟩
      intro hc
      exact (made_sees k.sees hw).2 ((k.lists.mem o).1 hc)
  · simp only [Out.pure_eq, Out.ok.injEq, Prod.mk.injEq] at hw
    obtain ⟨rfl, rfl⟩ := hw
    exact h

/-! ### lists of entries -/

theorem setFirst_none {id : Int} {new : Entry → Entry} {fresh : Entry} : ∀ {l : List Entry}, (∀ x ∈ l, x.id ≠ id) → setFirst id new fresh l = l ++ [fresh]
  | [], _ => rfl
  | x :: l, h => by
    unfold setFirst
    rw [if_neg (h x (by simp)), setFirst_none fun y hy => h y (by simp [hy])]
    rfl

theorem setFirst_map {D : Doc} {id : Int} {new : Entry → Entry} {fresh : Entry} {f h : Nat → Entry} (hf : ∀ x, (f x).id = D.id x) {c : Nat} (hc : h c = new (f c)) :
    ∀ {l : List Nat}, l.Nodup → l.find? (fun x => D.id x = id) = some c → (∀ x ∈ l, x ≠ c → h x = f x) → l.map h = setFirst id new fresh (l.map f)
  | [], _, hfd, _ => by cases hfd
  | x :: l, hn, hfd, hx => by
    rw [List.nodup_cons] at hn
    rw [List.find?_cons] at hfd
    simp only [List.map_cons, setFirst, hf]
    by_cases hi : D.id x = id
    · rw [if_pos hi]
      simp only [hi, decide_true, Option.some.injEq] at hfd
      subst hfd
      rw [hc]
      congr 1
      exact List.map_congr_left fun y hy => hx y (List.mem_cons_of_mem _ hy) (ne_of_mem_of_not_mem' hy hn.1)
    · rw [if_neg hi]
      have hdec : decide (D.id x = id) = false := by simp [hi]
      rw [hdec] at hfd
      simp only at hfd
      have hm := List.mem_of_find?_eq_some hfd
      rw [hx x (by simp) (fun he => hn.1 (he ▸ hm)), setFirst_map hf hc hn.2 hfd fun y hy => hx y (List.mem_cons_of_mem _ hy)]

/-! ### the children after a call -/

/-- what a call has done to the children of `p` -/
structure KidSet (p : Nat) (id : Int) (w : SetArg) (D D' : Doc) : Prop where
  only : OnlyKid p (D.kid p id) D D'
  entries : D'.kidEntries p = setKids (D.symType true id) id w (D.kidEntries p)
  good : ∀ a ∈ D'.forest.at' (.kids p), GoodVal (D'.type a) (D'.val a)

/-- a child is appended -/
theorem kid_added {E : Env} {maxSize : Nat} (h1 : 0x4000 ≤ maxSize) (h2 : maxSize < 2147483648) {P P1 Q : Pool} {D : Doc} (h : Sess E maxSize P D) {p k o : Nat} {id : Int} {w : SetArg} {v : List UInt8} (hp : D.forest.Elem p)
    (hg : ∀ a ∈ D.forest.at' (.kids p), GoodVal (D.type a) (D.val a)) (hk : D.forest.at' (.loose k) = []) (ho : ¬ D.forest.Elem o) (hn : D.kid p id = none) (hv : GoodVal (D.symType true id) v)
    (hr : readable (D.symType true id) v = setValue w) (hs : Sess E maxSize P1 (D.plus k o true id (D.symType true id) v)) (ha : P1.add p (some (o : Int)) = .ok Q) :
    ∃ D', Sess E maxSize Q D' ∧ KidSet p id w D D' ∧ o ∈ D'.forest.at' (.kids p) := by
  obtain ⟨els, V, fl, kp⟩ := sess_keeps h1 h2 h
  have hl : (D.plus k o true id (D.symType true id) v).forest.at' (.loose k) = [o] := if_pos rfl
  have hp' := plus_elem (o := o) (b := true) (id := id) (t := D.symType true id) (v := v) hk hp
  have htag : (D.plus k o true id (D.symType true id) v).forest.tag o = true := if_pos rfl
  have hhome : (D.plus k o true id (D.symType true id) v).forest.home p o = .kids p := by unfold Forest.home; rw [htag]; rfl
  have hst := Step.add (F := (D.plus k o true id (D.symType true id) v).forest) (p := p) (t := o) (k := k) hp' (by rw [hl]; simp)
  have hss := Sess.step hs hst ha
  refine ⟨_, hss, ?_⟩
  rw [hhome, hl]
  have hkp : (D.plus k o true id (D.symType true id) v).forest.at' (.kids p) = D.forest.at' (.kids p) := by rw [plus_at, if_neg (by simp)]
  rw [hkp, show fromElem o [o] = [o] by simp [fromElem]]
  have hat : ∀ q, (((D.plus k o true id (D.symType true id) v).forest.put (.kids p) (D.forest.at' (.kids p) ++ [o])).put (.loose k) []).at' q = if q = .kids p then D.forest.at' (.kids p) ++ [o] else D.forest.at' q := by
    intro q
    rw [put_at, put_at, plus_at]
    by_cases c1 : q = .loose k
    · subst c1; rw [if_pos rfl, if_neg (by simp), hk]
    · rw [if_neg c1, if_neg c1]
  have hne : ∀ e, D.forest.Elem e → e ≠ o := fun e he hc => ho (hc ▸ he)
  have hek : ∀ e ∈ D.forest.at' (.kids p), D.forest.Elem e := fun e he => ⟨_, he⟩
  refine ⟨⟨⟨fun q hq hqp => ?_, fun q hq => ?_, fun e he => ⟨?_, if_neg (hne e he), if_neg (hne e he), fun _ => ⟨if_neg (hne e he), if_neg (hne e he)⟩⟩, fun e he _ => ?_, rfl, rfl, rfl⟩, ?_, ?_⟩, ?_⟩
  · show Forest.at' _ _ = _
    rw [hat, if_neg (by simpa using hqp)]
  · show Forest.at' _ _ = _
    rw [hat, if_neg (by simp)]
  · obtain ⟨q, hq⟩ := he
    refine ⟨q, ?_⟩
    show e ∈ Forest.at' _ _
    rw [hat]
    split
    · next hc => rw [hc] at hq; simp [hq]
    · exact hq
  · show e ∈ Forest.at' _ _
    rw [hat, if_pos rfl]; simp [he]
  · unfold Doc.kidEntries setKids
    show (Forest.at' _ _).map _ = _
    rw [hat, if_pos rfl, List.map_append, List.map_cons, List.map_nil, setFirst_none]
    · congr 1
      · refine List.map_congr_left fun e he => ?_
        have := hne e (hek e he)
        simp only [Doc.plus, if_neg this]
      · simp only [Doc.plus, if_true, hr]
    · intro x hx
      rw [List.mem_map] at hx
      obtain ⟨e, he, rfl⟩ := hx
      have := List.find?_eq_none.1 hn e he
      simpa using this
  · intro a hm
    replace hm : a ∈ Forest.at' _ _ := hm
    rw [hat, if_pos rfl, List.mem_append, List.mem_singleton] at hm
    rcases hm with hm | rfl
    · have := hne a (hek a hm)
      simp only [Doc.plus, if_neg this]
      exact hg a hm
    · simp only [Doc.plus, if_true]
      exact hv
  · show o ∈ Forest.at' _ _
    rw [hat, if_pos rfl]; simp

/-- the value of a child is overwritten -/
theorem kid_stored {E : Env} {maxSize : Nat} (h1 : 0x4000 ≤ maxSize) (h2 : maxSize < 2147483648) {P Q : Pool} {D : Doc} (h : Sess E maxSize P D) {p c : Nat} {id : Int} {w : SetArg} {bs : List UInt8}
    (hg : ∀ a ∈ D.forest.at' (.kids p), GoodVal (D.type a) (D.val a)) (hc : D.kid p id = some c) (hpl : w ≠ .plain) (hty : D.type c = setType w) (hl : bs.length ≤ aa (D.val c).length)
    (hv : GoodVal (D.type c) (bs ++ (D.val c).drop bs.length)) (hr : readable (D.type c) (bs ++ (D.val c).drop bs.length) = setValue w) (hw : P.wr (c + 24) bs = .ok Q) :
    ∃ D', Sess E maxSize Q D' ∧ KidSet p id w D D' ∧ c ∈ D'.forest.at' (.kids p) := by
  obtain ⟨els, V, fl, kp⟩ := sess_keeps h1 h2 h
  have hm := List.mem_of_find?_eq_some hc
  refine ⟨_, Sess.stored h ⟨_, hm⟩ hl hw, ⟨⟨fun _ _ _ => rfl, fun _ _ => rfl, fun e he => ⟨he, rfl, rfl, fun hne => ⟨rfl, if_neg ?_⟩⟩, fun e he _ => he, rfl, rfl, rfl⟩, ?_, ?_⟩, hm⟩
  · rintro rfl; exact hne hc.symm
  · refine setFirst_map (D := D) (fun _ => rfl) (c := c) ?_ (kp.lists.nodup _) hc ?_
    · have hid : D.id c = id := by simpa using List.find?_some hc
      cases w with
      | plain => exact absurd rfl hpl
      | _ =>
        simp only [Doc.store, if_true, hid, hr]
        rw [if_pos hty]
    · intro x _ hx
      simp only [Doc.store, if_neg hx]
  · intro a ha
    show GoodVal (D.type a) (if a = c then _ else _)
    split
    · next hac => rw [hac]; exact hv
    · exact hg a ha

/-- a child is replaced -/
theorem kid_replaced {E : Env} {maxSize : Nat} (h1 : 0x4000 ≤ maxSize) (h2 : maxSize < 2147483648) {P P1 : Pool} {D : Doc} (h : Sess E maxSize P D) {p k o c : Nat} {id : Int} {w : SetArg} {v : List UInt8}
    (hg : ∀ a ∈ D.forest.at' (.kids p), GoodVal (D.type a) (D.val a)) (hk : D.forest.at' (.loose k) = []) (ho : ¬ D.forest.Elem o) (hc : D.kid p id = some c) (h2k : 2 ≤ (D.forest.at' (.kids p)).length) (hpl : w ≠ .plain)
    (hv : GoodVal (D.symType true id) v) (hr : readable (D.symType true id) v = setValue w) (ht : D.type c = setType w → D.symType true id = setType w)
    (hs : Sess E maxSize P1 (D.plus k o true id (D.symType true id) v)) :
    ∃ Q, P1.replace p c o = .ok Q ∧ ∃ D', Sess E maxSize Q D' ∧ KidSet p id w D D' ∧ D'.forest.at' (.loose k) = [c] ∧ o ∈ D'.forest.at' (.kids p) := by
  obtain ⟨els, V, fl, kp⟩ := sess_keeps h1 h2 h
  obtain ⟨els1, V1, fl1, kp1⟩ := sess_keeps h1 h2 hs
  have hm := List.mem_of_find?_eq_some hc
  have hne : ∀ e, D.forest.Elem e → e ≠ o := fun e he hc => ho (hc ▸ he)
  have hek : ∀ e ∈ D.forest.at' (.kids p), D.forest.Elem e := fun e he => ⟨_, he⟩
  have hco := hne c (hek c hm)
  have hl : (D.plus k o true id (D.symType true id) v).forest.at' (.loose k) = [o] := if_pos rfl
  have htag : (D.plus k o true id (D.symType true id) v).forest.tag o = true := if_pos rfl
  have htc : (D.plus k o true id (D.symType true id) v).forest.tag c = true := by
    show (if c = o then true else D.forest.tag c) = true
    rw [if_neg hco]; exact kp.lists.kids p c hm
  have hhome : (D.plus k o true id (D.symType true id) v).forest.home p c = .kids p := by unfold Forest.home; rw [htc]; rfl
  have hkp : (D.plus k o true id (D.symType true id) v).forest.at' (.kids p) = D.forest.at' (.kids p) := by rw [plus_at, if_neg (by simp)]
  have hst := Step.replace (F := (D.plus k o true id (D.symType true id) v).forest) (p := p) (old := c) (new := o) (k := k) (by rw [hhome, hkp]; exact hm) (by rw [hhome, hkp]; exact h2k) hl (by rw [htag, htc])
  obtain ⟨Q, -, -, hQ, -⟩ := step_spec kp1.sees kp1.lists hst
  have hss := Sess.step hs hst hQ
  rw [hhome, hkp] at hss
  refine ⟨Q, hQ, _, hss, ?_⟩
  have hat : ∀ q, (((D.plus k o true id (D.symType true id) v).forest.put (.kids p) ((D.forest.at' (.kids p)).map fun x => if x = c then o else x)).put (.loose k) [c]).at' q =
      if q = .loose k then [c] else if q = .kids p then (D.forest.at' (.kids p)).map (fun x => if x = c then o else x) else D.forest.at' q := by
    intro q
    rw [put_at, put_at, plus_at]
    by_cases c1 : q = .loose k
    · rw [if_pos c1, if_pos c1]
    · rw [if_neg c1, if_neg c1, if_neg c1]
  have hatk : (((D.plus k o true id (D.symType true id) v).forest.put (.kids p) ((D.forest.at' (.kids p)).map fun x => if x = c then o else x)).put (.loose k) [c]).at' (.kids p) = (D.forest.at' (.kids p)).map (fun x => if x = c then o else x) := by
    rw [hat, if_neg (by simp), if_pos rfl]
  refine ⟨⟨⟨fun q hq hqp => ?_, fun q hq => ?_, fun e he => ⟨?_, if_neg (hne e he), if_neg (hne e he), fun _ => ⟨if_neg (hne e he), if_neg (hne e he)⟩⟩, fun e he hec => ?_, rfl, rfl, rfl⟩, ?_, ?_⟩, ?_, ?_⟩
  · show Forest.at' _ _ = _
    rw [hat, if_neg (by simp), if_neg (by simpa using hqp)]
  · show Forest.at' _ _ = _
    rw [hat, if_neg (by simp), if_neg (by simp)]
  · by_cases hec : e = c
    · refine ⟨.loose k, ?_⟩
      show e ∈ Forest.at' _ _
      rw [hat, if_pos rfl, hec]; simp
    · obtain ⟨q, hq⟩ := he
      refine ⟨q, ?_⟩
      show e ∈ Forest.at' _ _
      rw [hat, if_neg (by rintro rfl; rw [hk] at hq; cases hq)]
      split
      · next hqk =>
        rw [hqk] at hq
        rw [List.mem_map]
        exact ⟨e, hq, if_neg hec⟩
      · exact hq
  · show e ∈ Forest.at' _ _
    rw [hatk, List.mem_map]
    exact ⟨e, he, if_neg (by rintro rfl; exact hec hc.symm)⟩
  · unfold Doc.kidEntries
    show (Forest.at' _ _).map _ = _
    rw [hatk, List.map_map]
    refine setFirst_map (D := D) (fun _ => rfl) (c := c) ?_ (kp.lists.nodup _) hc ?_
    · cases w with
      | plain => exact absurd rfl hpl
      | _ =>
        simp only [Function.comp, if_true, Doc.plus, hr]
        split
        · next hx => rw [hx, ht hx]
        · rfl
    · intro x hx hxc
      simp only [Function.comp, if_neg hxc, Doc.plus, if_neg (hne x (hek x hx))]
  · intro a ha
    replace ha : a ∈ Forest.at' _ _ := ha
    rw [hatk, List.mem_map] at ha
    obtain ⟨x, hx, rfl⟩ := ha
    by_cases hxc : x = c
    · rw [if_pos hxc]
      simp only [Doc.plus, if_true]
      exact hv
    · rw [if_neg hxc]
      simp only [Doc.plus, if_neg (hne x (hek x hx))]
      exact hg x hx
  · show Forest.at' _ _ = _
    rw [hat, if_pos rfl]
  · show o ∈ Forest.at' _ _
    rw [hatk, List.mem_map]
    exact ⟨c, hm, if_pos rfl⟩

/-- nothing changes -/
theorem kid_plain {D : Doc} {p c : Nat} {id : Int} (hn : (D.forest.at' (.kids p)).Nodup) (hg : ∀ a ∈ D.forest.at' (.kids p), GoodVal (D.type a) (D.val a)) (hc : D.kid p id = some c) : KidSet p id .plain D D :=
  ⟨⟨fun _ _ _ => rfl, fun _ _ => rfl, fun _ he => ⟨he, rfl, rfl, fun _ => ⟨rfl, rfl⟩⟩, fun _ he _ => he, rfl, rfl, rfl⟩,
    setFirst_map (D := D) (fun _ => rfl) (c := c) rfl hn hc fun _ _ _ => rfl, hg⟩

/-- a child is replaced where the call says so -/
theorem tagReplace_spec {E : Env} {maxSize : Nat} (h1 : 0x4000 ≤ maxSize) (h2 : maxSize < 2147483648) {P Q : Pool} {D : Doc} (h : Sess E maxSize P D) {p c : Nat} {id : Int} (hid : Is16 id) {w : SetArg} {r : Option Int}
    (hr : D.ready true = true) (hs : D.syms true ≠ []) (hg : ∀ a ∈ D.forest.at' (.kids p), GoodVal (D.type a) (D.val a)) (hc : D.kid p id = some c) (h2k : 2 ≤ (D.forest.at' (.kids p)).length) (hpl : w ≠ .plain)
    (ht : D.type c = setType w → w.accepts (D.symType true id) = true → D.symType true id = setType w) (hw : P.tagReplace E p id c w = .ok (Q, r)) :
    r = some c ∧ ∃ D', Sess E maxSize Q D' ∧ KidSet p id w D D' := by
  unfold Pool.tagReplace at hw
  obtain ⟨⟨P1, o⟩, hpt, hw⟩ := Out.bind_eq_ok hw
  have hsp := poolTag_spec h1 h2 h hid hr hs hpt
  cases o with
  | none => cases hw
  | some o =>
    simp only at hsp hw
    obtain ⟨k, v, a1, a2, a3, a4, a5, a6⟩ := hsp
    obtain ⟨Q', hQ, D', d1, d2, -⟩ := kid_replaced h1 h2 h hg a1 a2 hc h2k hpl a4 a5 (fun hx => ht hx a3) a6
    rw [hQ] at hw
    simp only [Out.pure_eq, Out.ok.injEq, Prod.mk.injEq] at hw
    obtain ⟨rfl, rfl⟩ := hw
    exact ⟨rfl, D', d1, d2⟩

/-- the text of a child -/
theorem kid_text {P : Pool} {e : Nat} {id : Int} {v : List UInt8} (hE : ElemAt P e id STRING v) (hs : P.alloc ≤ P.fileSize) (hg : (0 : UInt8) ∈ v) :
    P.img.str ((e : Int) + 24) = .ok (v.takeWhile (· ≠ 0)) ∧ (v.takeWhile (· ≠ 0)).length + 1 ≤ v.length := by
  obtain ⟨l, hl⟩ := cPrefix_mem hg
  have hv := hE.val
  have hhi := hE.hi
  unfold cPrefix at hl
  have hlen := congrArg List.length hl
  simp only [List.length_append, List.length_cons] at hlen
  have hh : Has P.mem (e + 24) (v.takeWhile (· ≠ 0) ++ [0] ++ l) := by
    have : v.takeWhile (· ≠ 0) ++ [0] ++ l = v := by
      conv => rhs; rw [hl]
      simp
    rw [this]; exact hv
  rw [Has.append] at hh
  exact ⟨Img.str_ok (f := P.img) hh.1 (cPrefix_noNul v) (by show _ ≤ P.fileSize; omega) _ (by omega), by omega⟩

/-- the value of a child is set where the child exists -/
theorem tagExisting_spec {E : Env} {maxSize : Nat} (h1 : 0x4000 ≤ maxSize) (h2 : maxSize < 2147483648) {P Q : Pool} {D : Doc} (h : Sess E maxSize P D) {p c : Nat} {id : Int} (hid : Is16 id) {w : SetArg} {r : Option Int}
    (hr : D.ready true = true) (hs : D.syms true ≠ []) (hg : ∀ a ∈ D.forest.at' (.kids p), GoodVal (D.type a) (D.val a)) (hc : D.kid p id = some c)
    (hfit : D.fits c w ∨ 2 ≤ (D.forest.at' (.kids p)).length) (htm : ∀ v, w ≠ .time v) (hw : P.tagExisting E p id c w = .ok (Q, r)) :
    (r = none ∧ Q = P ∧ ∃ v, w = .sha1 v ∧ D.type c ≠ SHA1) ∨ r = some (c : Int) ∧ ∃ D', Sess E maxSize Q D' ∧ KidSet p id w D D' := by
  obtain ⟨els, V, fl, k⟩ := sess_keeps h1 h2 h
  have hm := List.mem_of_find?_eq_some hc
  have hce := (k.lists.mem c).1 ⟨_, hm⟩
  have hsz := k.sees.size
  have hE := k.elem c hce
  have hgc := hg c hm
  have hcode : ∀ {t : XBT}, ((D.type c).code = t.code) ↔ D.type c = t := fun {t} => ⟨code_inj, fun he => by rw [he]⟩
  unfold Pool.tagExisting at hw
  rw [hE.eType hsz.1, Out.ok_bind] at hw
  have hwrite : ∀ {bs : List UInt8}, w ≠ .plain → D.type c = setType w → bs.length ≤ aa (D.val c).length → GoodVal (D.type c) (bs ++ (D.val c).drop bs.length) →
      readable (D.type c) (bs ++ (D.val c).drop bs.length) = setValue w → P.tagWrite c bs = .ok (Q, r) → r = some (c : Int) ∧ ∃ D', Sess E maxSize Q D' ∧ KidSet p id w D D' := by
    intro bs hpl hty hl hv hrd ht
    unfold Pool.tagWrite at ht
    obtain ⟨Q', hq, ht⟩ := Out.bind_eq_ok ht
    simp only [Out.pure_eq, Out.ok.injEq, Prod.mk.injEq] at ht
    obtain ⟨rfl, rfl⟩ := ht
    obtain ⟨D', d1, d2, -⟩ := kid_stored h1 h2 h hg hc hpl hty hl hv hrd hq
    exact ⟨rfl, D', d1, d2⟩
  cases w with
  | plain =>
    simp only [Out.pure_eq, Out.ok.injEq, Prod.mk.injEq] at hw
    obtain ⟨rfl, rfl⟩ := hw
    exact Or.inr ⟨rfl, D, h, kid_plain (k.lists.nodup _) hg hc⟩
  | time v => exact absurd rfl (htm v)
  | int32 v =>
    simp only [hcode] at hw
    split at hw
    · next ht =>
      rw [ht] at hgc
      have h4 : (D.val c).length = 4 := by simpa [GoodVal, is4, isINT32] using hgc
      have hd : le32 v ++ (D.val c).drop (le32 v).length = le32 v := by rw [List.drop_of_length_le (by simp; omega)]; simp
      exact Or.inr (hwrite (by simp) ht (by rw [h4]; simp; decide) (by rw [hd, ht]; simp [GoodVal, is4, isINT32]) (by rw [hd, ht]; simp [readable, setValue]) hw)
    · next ht =>
      exact Or.inr (tagReplace_spec h1 h2 h hid hr hs hg hc (hfit.resolve_left ht) (by simp) (fun hx => absurd hx ht) hw)
  | int64 v =>
    simp only [hcode] at hw
    split at hw
    · next ht =>
      rw [ht] at hgc
      have h8 : (D.val c).length = 8 := by
        have : ((D.val c).length : Int) = 8 := by simpa [GoodVal, is4, isINT32, fixedSize] using hgc
        omega
      have hd : le64 v ++ (D.val c).drop (le64 v).length = le64 v := by rw [List.drop_of_length_le (by simp; omega)]; simp
      exact Or.inr (hwrite (by simp) ht (by rw [h8]; simp; decide) (by rw [hd, ht]; simp [GoodVal, is4, isINT32, fixedSize]) (by rw [hd, ht]; simp [readable, setValue]) hw)
    · next ht =>
      exact Or.inr (tagReplace_spec h1 h2 h hid hr hs hg hc (hfit.resolve_left ht) (by simp) (fun hx => absurd hx ht) hw)
  | str v =>
    simp only [hcode] at hw
    have hacc : D.type c = setType (.str v) → (SetArg.str v).accepts (D.symType true id) = true → D.symType true id = setType (.str v) := fun _ ha => by
      exact of_decide_eq_true ha
    split at hw
    · next ht =>
      rw [ht] at hE
      have hz : (0 : UInt8) ∈ D.val c := by rw [ht] at hgc; exact hgc
      obtain ⟨t1, t2⟩ := kid_text hE hsz.1 hz
      rw [t1, Out.ok_bind] at hw
      cases v with
      | none => cases hw
      | some m =>
        simp only at hw
        split at hw
        · cases hw
        · split at hw
          · next hle =>
            have hrd : ∀ l : List UInt8, (cPrefix m ++ [0] ++ l).takeWhile (· ≠ 0) = cPrefix m := fun l => by rw [List.append_assoc]; exact takeWhile_prefix0 m l
            refine Or.inr (hwrite (by simp) ht ?_ ?_ ?_ hw)
            · rw [List.length_append, List.length_singleton]; unfold aa; omega
            · rw [ht]; simp [GoodVal]
            · rw [ht]; show List.takeWhile _ _ ++ [0] = _; rw [hrd]; rfl
          · next hle =>
            refine Or.inr (tagReplace_spec h1 h2 h hid hr hs hg hc (hfit.resolve_left fun hf => ?_) (by simp) hacc hw)
            have hf2 : (cPrefix m).length / 4 ≤ ((D.val c).takeWhile (· ≠ 0)).length / 4 := hf.2
            omega
    · next ht =>
      refine Or.inr (tagReplace_spec h1 h2 h hid hr hs hg hc (hfit.resolve_left fun hf => ?_) (by simp) hacc hw)
      cases v with
      | none => exact hf
      | some m => exact ht hf.1
  | sha1 v =>
    simp only [hcode] at hw
    split at hw
    · next ht =>
      rw [ht] at hgc
      have h20 : 20 ≤ (D.val c).length := hgc
      have hstep : ∀ bs : List UInt8, bs.length = 20 → bs = setValue (.sha1 v) → P.tagWrite c bs = .ok (Q, r) → r = some (c : Int) ∧ ∃ D', Sess E maxSize Q D' ∧ KidSet p id (.sha1 v) D D' := by
        intro bs hb hbv hw
        refine hwrite (by simp) ht ?_ ?_ ?_ hw
        · have := aa_ge (D.val c).length; omega
        · rw [ht]; simp only [GoodVal, List.length_append]; omega
        · rw [ht]
          show (bs ++ _).take 20 = _
          rw [List.take_append_of_le_length (by omega), List.take_of_length_le (by omega), hbv]
      cases v with
      | none => exact Or.inr (hstep (List.replicate 20 0) (by simp) rfl hw)
      | some m =>
        simp only at hw
        split at hw
        · cases hw
        · exact Or.inr (hstep (m.take 20) (by rw [List.length_take]; omega) rfl hw)
    · next ht =>
      simp only [Out.pure_eq, Out.ok.injEq, Prod.mk.injEq] at hw
      obtain ⟨rfl, rfl⟩ := hw
      exact Or.inl ⟨rfl, rfl, v, rfl, ht⟩

/-- the whole call -/
theorem tagSet_spec {E : Env} {maxSize : Nat} (h1 : 0x4000 ≤ maxSize) (h2 : maxSize < 2147483648) {P Q : Pool} {D : Doc} (h : Sess E maxSize P D) {p : Nat} (hp : D.forest.Elem p) {id : Int} (hid : Is16 id) {w : SetArg} {r : Option Int}
    (hr : D.ready true = true) (hs : D.syms true ≠ []) (hg : ∀ a ∈ D.forest.at' (.kids p), GoodVal (D.type a) (D.val a))
    (hfit : ∀ c, D.kid p id = some c → (D.fits c w ∨ 2 ≤ (D.forest.at' (.kids p)).length) ∧ ∀ v, w ≠ .time v) {fuel : Nat} (hfuel : (D.forest.at' (.kids p)).length < fuel) (hw : P.tagSet E p id w fuel = .ok (Q, r)) :
    match r with
    | none => Sess E maxSize Q D
    | some c' => ∃ D', Sess E maxSize Q D' ∧ KidSet p id w D D' ∧ (match D.kid p id with | some c => c' = c | none => ∃ o : Nat, c' = o ∧ o ∈ D'.forest.at' (.kids p)) := by
  obtain ⟨els, V, fl, k⟩ := sess_keeps h1 h2 h
  unfold Pool.tagSet at hw
  have hf := find_spec k ((k.lists.mem p).1 hp) (Or.inl rfl) id (f := 16) hfuel
  rw [hf, Out.ok_bind] at hw
  have hkid : (D.forest.at' (lst 16 p)).find? (fun x => decide (D.id x = id)) = D.kid p id := rfl
  rw [hkid] at hw
  cases hc : D.kid p id with
  | none =>
    rw [hc] at hw
    simp only [Option.map_none] at hw
    unfold Pool.tagNew at hw
    obtain ⟨⟨P1, o⟩, hpt, hw⟩ := Out.bind_eq_ok hw
    obtain ⟨Q', ha, hw⟩ := Out.bind_eq_ok hw
    simp only [Out.pure_eq, Out.ok.injEq, Prod.mk.injEq] at hw
    obtain ⟨rfl, rfl⟩ := hw
    have hsp := poolTag_spec h1 h2 h hid hr hs hpt
    cases o with
    | none =>
      simp only [Option.map_none, Pool.add, Out.pure_eq, Out.ok.injEq] at ha
      subst ha
      exact hsp
    | some o =>
      simp only at hsp
      obtain ⟨j, v, a1, a2, a3, a4, a5, a6⟩ := hsp
      obtain ⟨D', d1, d2, d3⟩ := kid_added h1 h2 h hp hg a1 a2 hc a4 a5 a6 ha
      exact ⟨D', d1, d2, o, rfl, d3⟩
  | some c =>
    rw [hc] at hw
    simp only [Option.map_some] at hw
    obtain ⟨f1, f2⟩ := hfit c hc
    rcases tagExisting_spec h1 h2 h hid hr hs hg hc f1 f2 hw with ⟨rfl, rfl, -⟩ | ⟨rfl, D', d1, d2⟩
    · exact h
    · exact ⟨D', d1, d2, rfl⟩

/-! ### reading -/

theorem readKid_spec {P : Pool} {D : Doc} {els V fl} (k : Keeps P D els V fl) {p : Nat} (hp : p ∈ els) (hg : ∀ a ∈ D.forest.at' (.kids p), GoodVal (D.type a) (D.val a)) (id : Int) {fuel : Nat}
    (hfuel : (D.forest.at' (.kids p)).length < fuel) : readKid P p id fuel = .ok (((D.kidEntries p).find? (fun x => x.id = id)).map fun x => ⟨x.type, x.value⟩) := by
  have hsz := k.sees.size
  unfold readKid
  have hf := find_spec k hp (Or.inl rfl) id (f := 16) hfuel
  rw [hf, Out.ok_bind]
  unfold Doc.kidEntries
  rw [List.find?_map]
  have he : ((fun x : Entry => decide (x.id = id)) ∘ fun a => (⟨D.id a, D.type a, readable (D.type a) (D.val a)⟩ : Entry)) = fun x => decide (D.id x = id) := rfl
  rw [he]
  show (match Option.map Int.ofNat (List.find? (fun x => decide (D.id x = id)) (D.forest.at' (.kids p))) with | none => _ | some a => _) = _
  cases hfd : List.find? (fun x => decide (D.id x = id)) (D.forest.at' (.kids p)) with
  | none => rfl
  | some a =>
    have hmem := List.mem_of_find?_eq_some hfd
    have hae := (k.lists.mem a).1 ⟨_, hmem⟩
    simp only [Option.map_some]
    rw [show elemValue P (Int.ofNat a) = _ from elemValue_read (k.elem a hae) hsz.1 (hg a hmem), Out.ok_bind]
    rfl

theorem readKids_spec {P : Pool} {D : Doc} {els V fl} (k : Keeps P D els V fl) : ∀ (l : List Nat), (∀ a ∈ l, a ∈ els ∧ GoodVal (D.type a) (D.val a)) →
    readKids P (l.map Int.ofNat) = .ok ((l.map fun a => (⟨D.id a, D.type a, readable (D.type a) (D.val a)⟩ : Entry)).map fun x => (x.id, ⟨x.type, x.value⟩))
  | [], _ => rfl
  | a :: l, h => by
    have hsz := k.sees.size
    obtain ⟨ha, hg⟩ := h a (by simp)
    simp only [List.map_cons]
    unfold readKids
    rw [show P.eId (Int.ofNat a) = _ from (k.elem a ha).eId hsz.1, Out.ok_bind, show elemValue P (Int.ofNat a) = _ from elemValue_read (k.elem a ha) hsz.1 hg, Out.ok_bind,
      readKids_spec k l fun x hx => h x (by simp [hx]), Out.ok_bind]
    rfl

end BX
