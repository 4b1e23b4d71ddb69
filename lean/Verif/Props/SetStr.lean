import Verif.Lemmas.SetStr
import Verif.Props.Set
/-
C68: setting the text of an element.
-/
namespace BX
open XBT Spec

/-- C68 (partial): after any history of a writable document whose symbols have been registered, `setStr` on a child `e` of `p` that holds a text returns
whether the new text is another one. If it is the same, nothing changes. If it is another one and there is room for it, the value of `e` becomes that
text, and nothing else changes. If there is not enough room, `e` is replaced by a new element that has the same name, that text and the attributes of `e`, and
all other elements and lists are as they were. What is missing: where there is not enough room, the new element is the last child (`C68_order_false`) and
does not have the children of `e` (`C68_children_false`); a null pointer (`C68_null_false`); the name of another type (`C68_refused_false`). -/
theorem C68_set_partial (E : Env) (maxSize : Nat) (h1 : 0x4000 ≤ maxSize) (h2 : maxSize < 2147483648) (P Q : Pool) (D : Doc) (h : Sess E maxSize P D) (hr : D.ready true = true) (hs : D.syms true ≠ [])
    (p e : Nat) (he : e ∈ D.forest.at' (.kids p)) (ht : D.IsText e) (m : BStr) (hm : (0 : UInt8) ∈ m) (r : Bool) (hw : P.setStr E e p (some m) = .ok (Q, r)) :
    (r = true ↔ m.takeWhile (· ≠ 0) ≠ D.textOf e) ∧ (r = false → Q = P) ∧
    (r = true → (m.takeWhile (· ≠ 0)).length < D.textRoom e → ∃ bs, Sess E maxSize Q (D.store e bs) ∧ (D.store e bs).IsText e ∧ (D.store e bs).textOf e = m.takeWhile (· ≠ 0) ∧
      readText Q e = .ok (some (m.takeWhile (· ≠ 0)))) ∧
    (r = true → D.textRoom e ≤ (m.takeWhile (· ≠ 0)).length → ∃ D' n, Sess E maxSize Q D' ∧ D.Swapped D' p e n ∧ (D'.type n = STRING ∨ D'.type n = BLOB_STRING) ∧
      readText Q n = .ok (some (m.takeWhile (· ≠ 0)))) := by
  obtain ⟨els, V, fl, k⟩ := sess_keeps h1 h2 h
  have hee := (k.lists.mem e).1 ⟨_, he⟩
  have htag := k.lists.kids p e he
  obtain ⟨d, off, g1, g2, g3, g4, g5, g6⟩ := text_read k hee ht
  obtain ⟨l, hl⟩ := cPrefix_mem hm
  have hlen := congrArg List.length hl
  simp only [List.length_append, List.length_cons] at hlen
  unfold cPrefix at hlen
  unfold Pool.setStr at hw
  rw [g1, Out.ok_bind, if_neg (by rw [g2]; rcases ht.1 with hc | hc <;> rw [hc] <;> simp)] at hw
  simp only at hw
  rw [g5, Out.ok_bind] at hw
  unfold cPrefix at hw
  rw [if_neg (by omega)] at hw
  split at hw
  · next hc =>
    cases hw
    exact ⟨by simp [hc], fun _ => rfl, fun h => (nomatch h), fun h => (nomatch h)⟩
  next hc =>
  rw [g4] at hw
  split at hw
  · next hfit =>
    obtain ⟨Q', hq, hw⟩ := Out.bind_eq_ok hw
    cases hw
    refine ⟨⟨fun _ h => hc h.symm, fun _ => rfl⟩, fun h => (nomatch h), fun _ _ => ?_, fun _ hn => absurd hfit (by omega)⟩
    rw [g3] at hq
    exact setStr_place h1 h2 h ⟨_, he⟩ ht htag hr hs (cPrefix_noNul m) (by omega) g6 hq
  · next hfit =>
    obtain ⟨rfl, D', n, a1, a2, -, a3, a4⟩ := setStrNew_spec h1 h2 h he hr hs hw
    refine ⟨⟨fun _ h => hc h.symm, fun _ => rfl⟩, fun h => (nomatch h), fun _ hn => absurd hn (by omega), fun _ _ => ⟨D', n, a1, a2, a3, a4⟩⟩

/-- C68: what other elements hold is not changed by `setStr`, whether the element is replaced or not. -/
theorem C68_others (E : Env) (maxSize : Nat) (h1 : 0x4000 ≤ maxSize) (h2 : maxSize < 2147483648) (P Q : Pool) (D : Doc) (h : Sess E maxSize P D) (hr : D.ready true = true) (hs : D.syms true ≠ [])
    (p e : Nat) (he : e ∈ D.forest.at' (.kids p)) (ht : D.IsText e) (m : BStr) (hm : (0 : UInt8) ∈ m) (r : Bool) (hw : P.setStr E e p (some m) = .ok (Q, r))
    (x : Nat) (hx : D.forest.Elem x) (hxe : x ≠ e) (hg : GoodVal (D.type x) (D.val x)) : Q.eId x = P.eId x ∧ elemValue Q x = elemValue P x := by
  obtain ⟨els, V, fl, k⟩ := sess_keeps h1 h2 h
  have kx := k.elem x ((k.lists.mem x).1 hx)
  have key : ∀ D', Sess E maxSize Q D' → D'.forest.Elem x → D'.id x = D.id x → D'.type x = D.type x → D'.val x = D.val x → Q.eId x = P.eId x ∧ elemValue Q x = elemValue P x := by
    intro D' hS b1 b2 b3 b4
    obtain ⟨els', V', fl', k'⟩ := sess_keeps h1 h2 hS
    have kx' := k'.elem x ((k'.lists.mem x).1 b1)
    rw [kx.eId k.sees.size.1, kx'.eId k'.sees.size.1, b2, elemValue_read kx k.sees.size.1 hg, elemValue_read kx' k'.sees.size.1 (by rw [b3, b4]; exact hg), b3, b4]
    exact ⟨rfl, rfl⟩
  obtain ⟨c1, c2, c3, c4⟩ := C68_set_partial E maxSize h1 h2 P Q D h hr hs p e he ht m hm r hw
  cases r with
  | false => rw [c2 rfl]; exact ⟨rfl, rfl⟩
  | true =>
    rcases Nat.lt_or_ge (m.takeWhile (· ≠ 0)).length (D.textRoom e) with hc | hc
    · obtain ⟨bs, s, -⟩ := c3 rfl hc
      exact key _ s hx rfl rfl (if_neg hxe)
    · obtain ⟨D', n, s, sw, -⟩ := c4 rfl hc
      obtain ⟨b1, b2, b3, b4, b5⟩ := sw.elem x hx
      exact key _ s b1 b3 b4 b5

/-- C68: `setStr` succeeds, when the name of the element is one for texts and there is room for a new element. -/
theorem C68_succeeds (E : Env) (hE : ∀ n, E.trunc n = true) (maxSize : Nat) (h1 : 0x4000 ≤ maxSize) (h2 : maxSize < 2147483648) (P : Pool) (D : Doc) (h : Sess E maxSize P D)
    (hr : D.ready true = true) (hs : D.syms true ≠ []) (p e : Nat) (he : e ∈ D.forest.at' (.kids p)) (ht : D.IsText e) (m : BStr) (hm : (0 : UInt8) ∈ m)
    (hsym : FitsSym (.str (some m)) (D.symType true (D.id e))) (room : P.alloc + 2 * (m.takeWhile (· ≠ 0)).length + 0x6002 ≤ P.mmapSize) : ∃ Q r, P.setStr E e p (some m) = .ok (Q, r) := by
  obtain ⟨els, V, fl, k⟩ := sess_keeps h1 h2 h
  have hee := (k.lists.mem e).1 ⟨_, he⟩
  have hE' := k.elem e hee
  have htag := k.lists.kids p e he
  obtain ⟨d, off, g1, g2, g3, g4, g5, g6⟩ := text_read k hee ht
  obtain ⟨l, hl⟩ := cPrefix_mem hm
  have hlen := congrArg List.length hl
  simp only [List.length_append, List.length_cons] at hlen
  unfold cPrefix at hlen
  unfold Pool.setStr
  rw [g1, Out.ok_bind, if_neg (by rw [g2]; rcases ht.1 with hc | hc <;> rw [hc] <;> simp)]
  simp only
  rw [g5, Out.ok_bind]
  unfold cPrefix
  rw [if_neg (by omega)]
  split
  · exact ⟨_, _, rfl⟩
  rw [g4]
  split
  · next hfit =>
    have hhi := hE'.hi
    have hpad := hE'.pad
    have hsz := k.sees.size
    obtain ⟨l', hn, hf⟩ := isText_form ht
    have hroom : off + D.textRoom e ≤ (D.val e).length := by
      rcases hf with ⟨f1, f2, f3⟩ | ⟨f1, f2, f3, f4⟩
      · rcases g6 with ⟨-, o⟩ | ⟨o, -⟩
        · rw [f2, f3, o, List.length_append, List.length_cons]; omega
        · rw [f1] at o; cases o
      · rcases g6 with ⟨o, -⟩ | ⟨-, o⟩
        · rw [f1] at o; cases o
        · rw [f4, f2, o, List.length_append, List.length_append, List.length_cons, le32_length]; omega
    rw [Pool.wr_eq (a := e + 24 + off) (by rw [List.length_append, List.length_singleton]; omega) _ (by rw [g3]; omega), Out.ok_bind]
    exact ⟨_, _, rfl⟩
  · unfold Pool.setStrNew
    have hfa : P.eAttr e = .ok _ := k.sees.get hee (by unfold IsPtr; decide) _ rfl
    have hfa' := k.lists.head e hee 20 (Or.inr rfl)
    rw [hfa, Out.ok_bind, hfa']
    obtain ⟨N, hN⟩ := sess_loose h
    have st1 : Step D.forest (.cut e) _ := Step.cut (k := N) ⟨_, he⟩ (hN N (Nat.le_refl _))
    obtain ⟨P1, -, -, hP1, -, o1, -⟩ := step_spec k.sees k.lists st1
    have s1 := Sess.step h st1 hP1
    rw [show P.wr (e + 20) (le32 0) = .ok P1 from hP1, Out.ok_bind]
    obtain ⟨els1, V1, fl1, k1⟩ := sess_keeps h1 h2 s1
    have at1 : ∀ q, ((D.forest.put (.attrs e) []).put (.loose N) (D.forest.at' (.attrs e))).at' q = if q = .loose N then D.forest.at' (.attrs e) else if q = .attrs e then [] else D.forest.at' q := fun q => rfl
    have tag1 : ((D.forest.put (.attrs e) []).put (.loose N) (D.forest.at' (.attrs e))).tag = D.forest.tag := rfl
    generalize (D.forest.put (.attrs e) []).put (.loose N) (D.forest.at' (.attrs e)) = F1 at s1 at1 tag1 k1
    have home1 : F1.home p e = .kids p := by unfold Forest.home; rw [tag1, htag]; rfl
    have k1p : F1.at' (.kids p) = D.forest.at' (.kids p) := by rw [at1, if_neg (by simp), if_neg (by simp)]
    have st2 : Step F1 (.remove p e) _ := Step.remove (p := p) (t := e) (k := N + 1) (by rw [home1, k1p]; exact he) (by rw [at1]; simpa using hN (N + 1) (by omega))
    obtain ⟨P2, -, -, hP2, -, o2, -⟩ := step_spec k1.sees k1.lists st2
    have s2 := Sess.step s1 st2 hP2
    rw [show P1.remove p (some (e : Int)) = .ok P2 from hP2, Out.ok_bind]
    have hp : D.forest.Elem p := (k.lists.mem p).2 (k.lists.own p 16 (by show D.forest.at' (.kids p) ≠ []; intro h0; rw [h0] at he; cases he))
    have elem2 : ∀ x, x = e ∨ x = p → (((F1.put (F1.home p e) ((F1.at' (F1.home p e)).erase e)).put (.loose (N + 1)) [e])).Elem x := by
      rintro x (rfl | rfl)
      · exact ⟨.loose (N + 1), by rw [put_at, if_pos rfl]; simp⟩
      · have h1 := (k1.lists.mem x).1 ((k1.lists.mem x).2 (k1.lists.own x 16 (by show F1.at' (.kids x) ≠ []; rw [k1p]; intro h0; rw [h0] at he; cases he)))
        obtain ⟨els2, V2, fl2, h2', -, -, h4⟩ := step_spec k1.sees k1.lists st2
        exact (h4.mem x).2 h1
    obtain ⟨els2, V2, fl2, k2⟩ := sess_keeps h1 h2 s2
    have hid2 := (k2.elem e ((k2.lists.mem e).1 (elem2 e (Or.inl rfl)))).eId k2.sees.size.1
    rw [hid2, Out.ok_bind]
    have hal : P2.alloc = P.alloc ∧ P2.mmapSize = P.mmapSize := by rw [o2.rest, o1.rest]; exact ⟨rfl, rfl⟩
    obtain ⟨P3, n, hP3⟩ := C61_succeeds E hE maxSize h1 h2 P2 _ s2 hr hs (D.id e) (.str (some m)) hsym ⟨_, rfl, hm⟩ (by
      rw [hal.1, hal.2]
      simp only [TagArg.size, cPrefix]
      omega)
    rw [show P2.tagArg E _ _ = _ from hP3, Out.ok_bind]
    have sp := tagArg_spec h1 h2 s2 hE'.is16 hr hs hP3
    obtain ⟨k3, t, v, nn, bs, a1, a2, a3, a4, a5, a6, a7, a8, a9, s3⟩ := sp
    obtain ⟨els3, V3, fl3, k3'⟩ := sess_keeps h1 h2 s3
    have st4 := Step.add (F := _) (p := p) (t := n) (k := k3) (plus_elem (t := t) (v := v) (o := n) (b := true) (id := D.id e) a4 (elem2 p (Or.inr rfl))) (by rw [show Forest.at' _ (Place.loose k3) = [n] from if_pos rfl]; simp)
    obtain ⟨P4, V4, fl4, hP4, s4, -⟩ := step_spec k3'.sees k3'.lists st4
    simp only
    rw [show P3.add p (some (n : Int)) = .ok P4 from hP4, Out.ok_bind]
    have hn3 := (k3'.lists.mem n).1 ⟨.loose k3, by rw [show Forest.at' _ (Place.loose k3) = [n] from if_pos rfl]; simp⟩
    have hb := s4.range n hn3
    have hsz := s4.size
    rw [Pool.wr_eq (a := n + 20) (by rw [le32_length]; omega) _ (by omega), Out.ok_bind]
    exact ⟨_, _, rfl⟩

/-- C68: an element of another type is not changed, and the call says so. -/
theorem C68_other_type (E : Env) (maxSize : Nat) (h1 : 0x4000 ≤ maxSize) (h2 : maxSize < 2147483648) (P : Pool) (D : Doc) (h : Sess E maxSize P D) (p e : Nat) (he : D.forest.Elem e)
    (hg : GoodVal (D.type e) (D.val e)) (ht : D.type e ≠ STRING ∧ D.type e ≠ BLOB_STRING) (v : Option BStr) : P.setStr E e p v = .ok (P, false) := by
  obtain ⟨els, V, fl, k⟩ := sess_keeps h1 h2 h
  obtain ⟨r, g1, g2, -⟩ := getData_spec (k.elem e ((k.lists.mem e).1 he)) k.sees.size.1 hg
  unfold Pool.setStr
  rw [g1, Out.ok_bind, if_pos (by rw [g2]; simpa using ht)]
  rfl

/-- C68 is false for a null pointer, although the function has code for it: every such call on a text is undefined. -/
theorem C68_null_false (E : Env) (maxSize : Nat) (h1 : 0x4000 ≤ maxSize) (h2 : maxSize < 2147483648) (P : Pool) (D : Doc) (h : Sess E maxSize P D) (p e : Nat) (he : D.forest.Elem e)
    (ht : D.IsText e) : P.setStr E e p none = .ub := by
  obtain ⟨els, V, fl, k⟩ := sess_keeps h1 h2 h
  obtain ⟨r, g1, g2, -⟩ := getData_spec (k.elem e ((k.lists.mem e).1 he)) k.sees.size.1 ht.2.1
  unfold Pool.setStr
  rw [g1, Out.ok_bind, if_neg (by rw [g2]; rcases ht.1 with hc | hc <;> rw [hc] <;> simp)]

/-! ### documents -/

def isDone : Out (Pool × Bool) → Bool
  | .ok (_, b) => b
  | _ => false

theorem isDone_eq {r : Out (Pool × Bool)} (h : isDone r = true) : r = .ok (poolOfB r, true) := by
  match r, h with
  | .ok (_, true), _ => rfl

def isUb : Out (Pool × Bool) → Bool
  | .ub => true
  | _ => false

theorem isUb_eq {r : Out (Pool × Bool)} (h : isUb r = true) : r = .ub := by
  match r, h with
  | .ub, _ => rfl

/-- the text is replaced by a longer one -/
def long1 : Out (Pool × Bool) := pair4.setStr demoEnv 132 104 (some (b8 "BCDEFGHIJ" ++ [0]))

theorem long_facts : isDone long1 = true ∧ (poolOfB long1).forwards 104 9 0 = .ok [160, 216] ∧ (poolOfB long1).forwards 216 9 0 = .ok [] ∧
    pair4.eId ((132 : Nat) : Int) = .ok 0 ∧ elemValue pair4 ((132 : Nat) : Int) = .ok ⟨STRING, b8 "B" ++ [0]⟩ ∧ pair4.alloc + 0x7000 ≤ pair4.mmapSize ∧
    isDone (pair4.alter true 0 BLOB) = true ∧ isUb ((poolOfB (pair4.alter true 0 BLOB)).setStr demoEnv 132 104 (some (b8 "BCDEFGHIJ" ++ [0]))) = true := by decide +kernel

/-- the first of two children is a text of one character -/
theorem pair_text {D : Doc} (h : Sess demoEnv 0x10000 pair4 D) (hk : D.forest.at' (.kids 104) = [132, 160]) (hg : ∀ a ∈ D.forest.at' (.kids 104), GoodVal (D.type a) (D.val a)) :
    D.IsText 132 ∧ D.id 132 = 0 ∧ D.textOf 132 = b8 "B" ∧ D.textRoom 132 = 2 := by
  obtain ⟨els, V, fl, k⟩ := sess_keeps (by decide) (by decide) h
  have hee := (k.lists.mem 132).1 ⟨.kids 104, by rw [hk]; simp⟩
  have hE := k.elem 132 hee
  have hg' := hg 132 (by rw [hk]; simp)
  have f1 := long_facts.2.2.2.1
  have f2 := long_facts.2.2.2.2.1
  rw [hE.eId k.sees.size.1] at f1
  rw [elemValue_read hE k.sees.size.1 hg'] at f2
  simp only [Out.ok.injEq, Data.mk.injEq] at f1 f2
  obtain ⟨t1, t2⟩ := f2
  rw [t1] at t2 hg'
  have hb : D.textBytes 132 = D.val 132 := by unfold Doc.textBytes; rw [if_neg (by rw [t1]; decide)]
  have hto : D.textOf 132 = b8 "B" := by
    unfold Doc.textOf
    rw [hb]
    have : (D.val 132).takeWhile (· ≠ 0) ++ [0] = b8 "B" ++ [0] := t2
    exact List.append_cancel_right this
  refine ⟨⟨Or.inl t1, by rw [t1]; exact hg', by rw [hb]; exact hg'⟩, f1, hto, ?_⟩
  unfold Doc.textRoom
  rw [if_neg (by rw [t1]; decide), hto]
  rfl

/-- the hypotheses of `C68_set_partial` are met: a text is replaced by a longer one, and by one that has room -/
example : (∃ Q D' n, pair4.setStr demoEnv ((132 : Nat) : Int) ((104 : Nat) : Int) (some (b8 "BCDEFGHIJ" ++ [0])) = .ok (Q, true) ∧ Sess demoEnv 0x10000 Q D' ∧ D'.forest.at' (.kids 104) = [160, n] ∧ readText Q n = .ok (some (b8 "BCDEFGHIJ"))) ∧
    (∃ Q, pair4.setStr demoEnv ((132 : Nat) : Int) ((104 : Nat) : Int) (some (b8 "C" ++ [0])) = .ok (Q, true) ∧ readText Q ((132 : Nat) : Int) = .ok (some (b8 "C"))) ∧
    pair4.setStr demoEnv ((132 : Nat) : Int) ((104 : Nat) : Int) (some (b8 "B" ++ [0])) = .ok (pair4, false) := by
  obtain ⟨D, h, ht, hr, hs, hk, -, hg, hc⟩ := pair_sess
  obtain ⟨t1, t2, t3, t4⟩ := pair_text h hk hg
  have he : 132 ∈ D.forest.at' (.kids 104) := by rw [hk]; simp
  have hroom := long_facts.2.2.2.2.2.1
  have key : ∀ m : BStr, (0 : UInt8) ∈ m → m.length < 100 → ∃ Q r, pair4.setStr demoEnv ((132 : Nat) : Int) ((104 : Nat) : Int) (some m) = .ok (Q, r) := fun m h0 hl => by
    have := (List.takeWhile_prefix (l := m) (fun x : UInt8 => decide (x ≠ 0))).length_le
    exact C68_succeeds demoEnv (fun _ => rfl) 0x10000 (by decide) (by decide) pair4 D h hr hs 104 132 he t1 m h0 (by rw [t2, ht]; exact Or.inl rfl) (by omega)
  refine ⟨?_, ?_, ?_⟩
  · obtain ⟨Q, r, hq⟩ := key (b8 "BCDEFGHIJ" ++ [0]) (by decide) (by decide)
    obtain ⟨c1, -, -, c4⟩ := C68_set_partial demoEnv 0x10000 (by decide) (by decide) pair4 Q D h hr hs 104 132 he t1 _ (by decide) r hq
    have hr' := c1.2 (by rw [t3]; decide)
    subst hr'
    obtain ⟨D', n, d1, d2, d3, d4⟩ := c4 rfl (by rw [t4]; decide)
    exact ⟨Q, D', n, hq, d1, by rw [d2.kids, hk]; rfl, d4⟩
  · obtain ⟨Q, r, hq⟩ := key (b8 "C" ++ [0]) (by decide) (by decide)
    obtain ⟨c1, -, c3, -⟩ := C68_set_partial demoEnv 0x10000 (by decide) (by decide) pair4 Q D h hr hs 104 132 he t1 _ (by decide) r hq
    have hr' := c1.2 (by rw [t3]; decide)
    subst hr'
    obtain ⟨bs, -, -, -, d4⟩ := c3 rfl (by rw [t4]; decide)
    exact ⟨Q, hq, d4⟩
  · obtain ⟨Q, r, hq⟩ := key (b8 "B" ++ [0]) (by decide) (by decide)
    obtain ⟨c1, c2, -, -⟩ := C68_set_partial demoEnv 0x10000 (by decide) (by decide) pair4 Q D h hr hs 104 132 he t1 _ (by decide) r hq
    cases r with
    | true => exact absurd (by rw [t3]; decide) (c1.1 rfl)
    | false => rw [hq, c2 rfl]

/-- C68 is false for the place of the element: where there is not enough room, the first child becomes the last. -/
theorem C68_order_false : (∃ D, Sess demoEnv 0x10000 pair4 D ∧ D.ready true = true ∧ D.forest.at' (.kids 104) = [132, 160] ∧ D.IsText 132) ∧
    ∃ Q, pair4.setStr demoEnv 132 104 (some (b8 "BCDEFGHIJ" ++ [0])) = .ok (Q, true) ∧ Q.forwards 104 9 0 = .ok [160, 216] := by
  obtain ⟨D, h, ht, hr, hs, hk, -, hg, hc⟩ := pair_sess
  exact ⟨⟨D, h, hr, hk, (pair_text h hk hg).1⟩, _, isDone_eq long_facts.1, long_facts.2.1⟩

/-- C68 is false for the children of the element: where there is not enough room, they are lost. -/
theorem C68_children_false : (∃ D, Sess demoEnv 0x10000 pair4 D ∧ D.ready true = true ∧ D.forest.at' (.kids 104) = [132, 160] ∧ D.IsText 132 ∧ D.forest.at' (.kids 132) = [188]) ∧
    ∃ Q, pair4.setStr demoEnv 132 104 (some (b8 "BCDEFGHIJ" ++ [0])) = .ok (Q, true) ∧ Q.forwards 216 9 0 = .ok [] := by
  obtain ⟨D, h, ht, hr, hs, hk, hk', hg, hc⟩ := pair_sess
  exact ⟨⟨D, h, hr, hk, (pair_text h hk hg).1, hk'⟩, _, isDone_eq long_facts.1, long_facts.2.2.1⟩

/-- C68 is false where the type of the name has been changed to one that is not for texts: the element is removed, no new one is made, and the call
uses a null pointer. -/
theorem C68_refused_false : (∃ D, Sess demoEnv 0x10000 (poolOfB (pair4.alter true 0 BLOB)) D ∧ D.ready true = true ∧ D.syms true ≠ [] ∧ D.forest.at' (.kids 104) = [132, 160] ∧ D.IsText 132) ∧
    (poolOfB (pair4.alter true 0 BLOB)).setStr demoEnv 132 104 (some (b8 "BCDEFGHIJ" ++ [0])) = .ub := by
  obtain ⟨D, h, ht, hr, hs, hk, hk', hg, hc⟩ := pair_sess
  refine ⟨⟨_, Sess.altered h (isDone_eq long_facts.2.2.2.2.2.2.1), ?_, ?_, hk, (pair_text h hk hg).1⟩, isUb_eq long_facts.2.2.2.2.2.2.2⟩
  · simpa [Doc.setSyms] using hr
  · simp only [Doc.setSyms, if_true, ne_eq]
    unfold retyped
    intro hx
    cases hsy : D.syms true with
    | nil => exact hs hsy
    | cons a l => rw [hsy] at hx; simp at hx

end BX
