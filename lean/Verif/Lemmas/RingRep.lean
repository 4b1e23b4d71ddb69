import Verif.Lemmas.Make
import Verif.Spec.Rings
/-
The links represent lists.
-/
namespace BX
open XBT Spec

/-- the list of `p` with the field `k` -/
def lst (k p : Nat) : Place := if k = 16 then .kids p else .attrs p

/-- the links `V` and flags `fl` of the elements `els` represent the lists of `F` -/
structure Lists (F : Forest) (els : List Nat) (V : Nat → Nat → Nat) (fl : Nat → UInt8) : Prop where
  mem : ∀ e, F.Elem e ↔ e ∈ els
  nodup : ∀ q, (F.at' q).Nodup
  disj : ∀ q r e, e ∈ F.at' q → e ∈ F.at' r → q = r
  ring : ∀ q, Circle (V 8) (V 12) (F.at' q)
  head : ∀ p ∈ els, ∀ k, k = 16 ∨ k = 20 → V k p = (F.at' (lst k p)).headD 0
  own : ∀ p k, F.at' (lst k p) ≠ [] → p ∈ els
  bit : ∀ e ∈ els, (fl e &&& 1 ≠ 0) ↔ F.tag e = true
  kids : ∀ p, ∀ e ∈ F.at' (.kids p), F.tag e = true
  attrs : ∀ p, ∀ e ∈ F.at' (.attrs p), F.tag e = false
  loose : ∀ k, ∀ e ∈ F.at' (.loose k), ∀ e' ∈ F.at' (.loose k), F.tag e = F.tag e'

theorem lst_ne_loose (k p j : Nat) : lst k p ≠ .loose j := by unfold lst; split <;> simp
theorem lst_inj {k p k' p' : Nat} (h : lst k p = lst k' p') (hk : k = 16 ∨ k = 20) (hk' : k' = 16 ∨ k' = 20) : k = k' ∧ p = p' := by
  unfold lst at h
  rcases hk with rfl | rfl <;> rcases hk' with rfl | rfl <;> simp at h <;> simp [h]

theorem Lists.home {F : Forest} {els V fl} (h : Lists F els V fl) {p t : Nat} (ht : t ∈ els) : F.home p t = lst (listField (fl t)) p := by
  have := h.bit t ht
  unfold Forest.home lst listField
  by_cases hb : F.tag t = true
  · rw [if_pos hb, if_pos (this.2 hb)]; rfl
  · rw [if_neg hb, if_neg (fun h' => hb (this.1 h'))]; rfl

theorem put_at (F : Forest) (q r : Place) (l : List Nat) : (F.put q l).at' r = if r = q then l else F.at' r := rfl
theorem put_tag (F : Forest) (q : Place) (l : List Nat) : (F.put q l).tag = F.tag := rfl

/-- moving elements between a list and a circle, or two circles -/
theorem Lists.move {F : Forest} {els V fl} (h : Lists F els V fl) {q : Place} {k : Nat} {l m : List Nat} {V' : Nat → Nat → Nat} {fl' : Nat → UInt8}
    (hqr : q ≠ .loose k) (hperm : (l ++ m).Perm (F.at' q ++ F.at' (.loose k))) (hl : Circle (V' 8) (V' 12) l) (hm : Circle (V' 8) (V' 12) m)
    (hsame : ∀ x, x ∉ F.at' q → x ∉ F.at' (.loose k) → V' 8 x = V 8 x ∧ V' 12 x = V 12 x)
    (hhead : ∀ p ∈ els, ∀ f, f = 16 ∨ f = 20 → V' f p = if lst f p = q then l.headD 0 else V f p)
    (hown : ∀ p f, lst f p = q → p ∈ els) (hbit : ∀ e ∈ els, (fl' e &&& 1 ≠ 0) ↔ (fl e &&& 1 ≠ 0))
    (hkind : ∀ e ∈ F.at' q ++ F.at' (.loose k), ∀ e' ∈ F.at' q ++ F.at' (.loose k), F.tag e = F.tag e')
    (hplace : ∀ e ∈ F.at' q ++ F.at' (.loose k), (∀ p, q = .kids p → F.tag e = true) ∧ (∀ p, q = .attrs p → F.tag e = false)) :
    Lists ((F.put q l).put (.loose k) m) els V' fl' := by
  have hat : ∀ r, ((F.put q l).put (.loose k) m).at' r = if r = .loose k then m else if r = q then l else F.at' r := fun r => rfl
  have hq : ((F.put q l).put (.loose k) m).at' q = l := by rw [hat, if_neg hqr, if_pos rfl]
  have hk : ((F.put q l).put (.loose k) m).at' (.loose k) = m := by rw [hat, if_pos rfl]
  have ho : ∀ r, r ≠ q → r ≠ .loose k → ((F.put q l).put (.loose k) m).at' r = F.at' r := fun r h1 h2 => by rw [hat, if_neg h2, if_neg h1]
  have htag : ((F.put q l).put (.loose k) m).tag = F.tag := rfl
  have hmem : ∀ e, e ∈ l ∨ e ∈ m ↔ e ∈ F.at' q ∨ e ∈ F.at' (.loose k) := fun e => by
    rw [← List.mem_append, ← List.mem_append]; exact hperm.mem_iff
  have hnd0 : (F.at' q ++ F.at' (.loose k)).Nodup := by
    rw [List.nodup_append]
    exact ⟨h.nodup _, h.nodup _, fun a ha b hb hab => hqr (h.disj _ _ a ha (hab ▸ hb))⟩
  have hnd : (l ++ m).Nodup := hperm.nodup_iff.2 hnd0
  rw [List.nodup_append] at hnd
  refine ⟨?_, ?_, ?_, ?_, ?_, ?_, ?_, ?_, ?_, ?_⟩
  · intro e
    rw [← h.mem]
    constructor
    · rintro ⟨r, hr⟩
      by_cases h1 : r = .loose k
      · subst h1; rw [hk] at hr
        rcases (hmem e).1 (Or.inr hr) with h' | h'
        · exact ⟨_, h'⟩
        · exact ⟨_, h'⟩
      · by_cases h2 : r = q
        · subst h2; rw [hq] at hr
          rcases (hmem e).1 (Or.inl hr) with h' | h'
          · exact ⟨_, h'⟩
          · exact ⟨_, h'⟩
        · rw [ho r h2 h1] at hr; exact ⟨_, hr⟩
    · rintro ⟨r, hr⟩
      by_cases h1 : r = .loose k
      · subst h1
        rcases (hmem e).2 (Or.inr hr) with h' | h'
        · exact ⟨q, by rw [hq]; exact h'⟩
        · exact ⟨.loose k, by rw [hk]; exact h'⟩
      · by_cases h2 : r = q
        · subst h2
          rcases (hmem e).2 (Or.inl hr) with h' | h'
          · exact ⟨r, by rw [hq]; exact h'⟩
          · exact ⟨.loose k, by rw [hk]; exact h'⟩
        · exact ⟨r, by rw [ho r h2 h1]; exact hr⟩
  · intro r
    by_cases h1 : r = .loose k
    · subst h1; rw [hk]; exact hnd.2.1
    · by_cases h2 : r = q
      · subst h2; rw [hq]; exact hnd.1
      · rw [ho r h2 h1]; exact h.nodup r
  · have key : ∀ r e, r ≠ q → r ≠ .loose k → e ∈ F.at' r → ¬ (e ∈ l ∨ e ∈ m) := by
      intro r e h1 h2 h3 h4
      rcases (hmem e).1 h4 with h5 | h5
      · exact h1 (h.disj _ _ e h3 h5)
      · exact h2 (h.disj _ _ e h3 h5)
    intro r s e hr hs
    by_cases r1 : r = .loose k
    · by_cases s1 : s = .loose k
      · rw [r1, s1]
      · exfalso
        subst r1
        rw [hk] at hr
        by_cases s2 : s = q
        · subst s2; rw [hq] at hs; exact hnd.2.2 e hs e hr rfl
        · rw [ho s s2 s1] at hs; exact key s e s2 s1 hs (Or.inr hr)
    · by_cases r2 : r = q
      · subst r2
        rw [hq] at hr
        by_cases s1 : s = .loose k
        · exfalso; subst s1; rw [hk] at hs; exact hnd.2.2 e hr e hs rfl
        · by_cases s2 : s = r
          · exact s2.symm
          · exfalso; rw [ho s s2 s1] at hs; exact key s e s2 s1 hs (Or.inl hr)
      · rw [ho r r2 r1] at hr
        by_cases s1 : s = .loose k
        · exfalso; subst s1; rw [hk] at hs; exact key r e r2 r1 hr (Or.inr hs)
        · by_cases s2 : s = q
          · exfalso; subst s2; rw [hq] at hs; exact key r e r2 r1 hr (Or.inl hs)
          · rw [ho s s2 s1] at hs; exact h.disj _ _ e hr hs
  · intro r
    by_cases h1 : r = .loose k
    · subst h1; rw [hk]; exact hm
    · by_cases h2 : r = q
      · subst h2; rw [hq]; exact hl
      · rw [ho r h2 h1]
        have : ∀ x ∈ F.at' r, V' 8 x = V 8 x ∧ V' 12 x = V 12 x := fun x hx =>
          hsame x (fun h' => h2 (h.disj _ _ x hx h')) (fun h' => h1 (h.disj _ _ x hx h'))
        exact Ring_congr (fun x hx => (this x hx).1) (fun x hx => (this x hx).2) (h.ring r)
  · intro p hp f hf
    rw [hhead p hp f hf]
    by_cases h2 : lst f p = q
    · rw [if_pos h2, h2, hq]
    · rw [if_neg h2, ho _ h2 (lst_ne_loose _ _ _)]; exact h.head p hp f hf
  · intro p f hne
    by_cases h2 : lst f p = q
    · exact hown p f h2
    · rw [ho _ h2 (lst_ne_loose _ _ _)] at hne; exact h.own p f hne
  · intro e he
    rw [hbit e he]; exact h.bit e he
  · intro p e he
    rw [htag]
    by_cases h2 : (.kids p : Place) = q
    · rw [h2, hq] at he
      exact (hplace e (List.mem_append.2 ((hmem e).1 (Or.inl he)))).1 p h2.symm
    · rw [ho _ h2 (by simp)] at he; exact h.kids p e he
  · intro p e he
    rw [htag]
    by_cases h2 : (.attrs p : Place) = q
    · rw [h2, hq] at he
      exact (hplace e (List.mem_append.2 ((hmem e).1 (Or.inl he)))).2 p h2.symm
    · rw [ho _ h2 (by simp)] at he; exact h.attrs p e he
  · intro j e he e' he'
    rw [htag]
    by_cases h1 : (.loose j : Place) = .loose k
    · rw [h1, hk] at he he'
      exact hkind e (List.mem_append.2 ((hmem e).1 (Or.inr he))) e' (List.mem_append.2 ((hmem e').1 (Or.inr he')))
    · by_cases h2 : (.loose j : Place) = q
      · rw [h2, hq] at he he'
        exact hkind e (List.mem_append.2 ((hmem e).1 (Or.inl he))) e' (List.mem_append.2 ((hmem e').1 (Or.inl he')))
      · rw [ho _ h2 h1] at he he'; exact h.loose j e he e' he'

/-- splitting a list at an element -/
theorem split_at {t : Nat} : ∀ {l : List Nat}, t ∈ l → ∃ x y, l = x ++ t :: y ∧ t ∉ x ∧ fromElem t l = t :: (y ++ x)
  | [], h => by simp at h
  | a :: l, h => by
    by_cases ha : a = t
    · subst ha
      exact ⟨[], l, rfl, by simp, by simp [fromElem, List.dropWhile, List.takeWhile]⟩
    · have h' : t ∈ l := by
        rcases List.mem_cons.1 h with h' | h'
        · exact absurd h'.symm ha
        · exact h'
      obtain ⟨x, y, rfl, hx, hf⟩ := split_at h'
      refine ⟨a :: x, y, rfl, by simp [hx, Ne.symm ha], ?_⟩
      unfold fromElem at hf ⊢
      have hd : ∀ x : List Nat, t ∉ x → (x ++ t :: y).dropWhile (· ≠ t) = t :: y ∧ (x ++ t :: y).takeWhile (· ≠ t) = x := by
        intro x
        induction x with
        | nil => intro _; simp [List.dropWhile, List.takeWhile]
        | cons b x ih =>
          intro hb
          simp only [List.mem_cons, not_or] at hb
          have hbt : decide (b ≠ t) = true := by simp [Ne.symm hb.1]
          simp only [List.cons_append, List.dropWhile, List.takeWhile, hbt]
          exact ⟨(ih hb.2).1, by rw [(ih hb.2).2]⟩
      obtain ⟨d1, d2⟩ := hd (a :: x) (by simp [hx, Ne.symm ha])
      show List.dropWhile _ (a :: x ++ t :: y) ++ List.takeWhile _ (a :: x ++ t :: y) = _
      rw [d1, d2]; rfl

theorem erase_split {t : Nat} {x y : List Nat} (hx : t ∉ x) : (x ++ t :: y).erase t = x ++ y := by
  rw [List.erase_append_right _ hx, List.erase_cons_head]

theorem Circle.mem_pv {nx pv : Nat → Nat} {l : List Nat} (h : Circle nx pv l) {t : Nat} (ht : t ∈ l) : pv t ∈ l := by
  obtain ⟨x, y, rfl, -, -⟩ := split_at ht
  rw [Circle_rot] at h
  obtain ⟨i, hi⟩ := Ring_last (l := y ++ x) h
  have := last_mem hi
  simp only [List.mem_cons, List.mem_append] at this ⊢
  rcases this with h' | h' | h'
  · exact Or.inr (Or.inl h')
  · exact Or.inr (Or.inr h')
  · exact Or.inl h'

theorem Circle.mem_nx {nx pv : Nat → Nat} {l : List Nat} (h : Circle nx pv l) {t : Nat} (ht : t ∈ l) : nx t ∈ l := by
  obtain ⟨x, y, rfl, -, -⟩ := split_at ht
  rw [Circle_rot] at h
  have h : Circle nx pv (t :: (y ++ x)) := h
  rw [List.mem_append, List.mem_cons, Or.comm, or_assoc, ← List.mem_append]
  cases hyx : y ++ x with
  | nil =>
    rw [hyx] at h
    exact Or.inl (Ring_single.1 h).1
  | cons b m =>
    rw [hyx] at h
    rw [Ring_next h]
    exact Or.inr (by simp)

theorem ne_of_not_mem' {x t : Nat} {l : List Nat} (hx : x ∉ l) (ht : t ∈ l) : x ≠ t := fun h => hx (h ▸ ht)

theorem joinV8 (V : Nat → Nat → Nat) (a b : Nat) : joinV V a b 8 = upd (upd (V 8) (V 12 b) a) (V 12 a) b := by
  unfold joinV
  rw [setV_self, setV_self, setV_ne _ _ _ (by omega), setV_ne _ _ _ (by omega)]
theorem joinV12 (V : Nat → Nat → Nat) (a b : Nat) : joinV V a b 12 = upd (upd (V 12) a (V 12 b)) b (V 12 a) := by
  unfold joinV
  rw [setV_ne _ _ _ (by omega), setV_ne _ _ _ (by omega), setV_self, setV_self]
theorem joinV_head (V : Nat → Nat → Nat) (a b : Nat) {k : Nat} (hk : k = 16 ∨ k = 20) : joinV V a b k = V k := by
  unfold joinV
  rw [setV_ne _ _ _ (by omega), setV_ne _ _ _ (by omega), setV_ne _ _ _ (by omega), setV_ne _ _ _ (by omega)]

theorem joinV_same {V : Nat → Nat → Nat} {a b x : Nat} (h1 : x ≠ V 12 a) (h2 : x ≠ V 12 b) (h3 : x ≠ a) (h4 : x ≠ b) : joinV V a b 8 x = V 8 x ∧ joinV V a b 12 x = V 12 x := by
  rw [joinV8, joinV12, upd_ne _ _ h1, upd_ne _ _ h2, upd_ne _ _ h4, upd_ne _ _ h3]
  exact ⟨rfl, rfl⟩

/-- where the elements of a home list are -/
theorem home_kind {F : Forest} {els V fl} (h : Lists F els V fl) {p t : Nat} : ∀ e ∈ F.at' (F.home p t), F.tag e = F.tag t := by
  intro e he
  unfold Forest.home at he
  split at he
  · rename_i ht; rw [ht]; exact h.kids p e he
  · rename_i ht; rw [h.attrs p e he]; simpa using ht

theorem home_place {F : Forest} {p t : Nat} : (∀ p', F.home p t = .kids p' → F.tag t = true) ∧ (∀ p', F.home p t = .attrs p' → F.tag t = false) := by
  unfold Forest.home
  constructor
  · intro p' h
    split at h
    · assumption
    · cases h
  · intro p' h
    split at h
    · cases h
    · rename_i ht; simpa using ht

theorem step_add {P : Pool} {F : Forest} {els V fl} (s : Sees P els V fl) (h : Lists F els V fl) {p t k : Nat} (hp : F.Elem p) (ht : t ∈ F.at' (.loose k)) :
    ∃ Q V', P.add p (some (t : Int)) = .ok Q ∧ Sees Q els V' fl ∧ Only P Q els ∧
      Lists ((F.put (F.home p t) (F.at' (F.home p t) ++ fromElem t (F.at' (.loose k)))).put (.loose k) []) els V' fl := by
  have hpe := (h.mem p).1 hp
  have hte := (h.mem t).1 ⟨_, ht⟩
  have hhome := h.home (p := p) hte
  have hnl : F.home p t ≠ .loose k := by rw [hhome]; exact lst_ne_loose _ _ _
  have hhd := h.head p hpe (listField (fl t)) (listField_or _)
  rw [← hhome] at hhd
  have hring := h.ring (F.home p t)
  have hcirc := h.ring (.loose k)
  have hpv : V 12 t ∈ F.at' (.loose k) := Circle.mem_pv hcirc ht
  obtain ⟨x, y, hxy, hx, hfrom⟩ := split_at ht
  have hrot : Circle (V 8) (V 12) (t :: (y ++ x)) := by
    rw [hxy, Circle_rot] at hcirc; exact hcirc
  have hpm : (t :: (y ++ x)).Perm (F.at' (.loose k)) := by
    rw [hxy]; exact List.perm_append_comm (l₁ := t :: y) (l₂ := x)
  have hnd : (F.at' (F.home p t) ++ F.at' (.loose k)).Nodup := by
    rw [List.nodup_append]
    exact ⟨h.nodup _, h.nodup _, fun a ha b hb hab => hnl (h.disj _ _ a ha (hab ▸ hb))⟩
  have kinds : ∀ e ∈ F.at' (F.home p t) ++ F.at' (.loose k), F.tag e = F.tag t := by
    intro e he
    rcases List.mem_append.1 he with he | he
    · exact home_kind h e he
    · exact h.loose k e he t ht
  have hfin : ∀ V', Circle (V' 8) (V' 12) (F.at' (F.home p t) ++ t :: (y ++ x)) → (∀ z, z ∉ F.at' (F.home p t) → z ∉ F.at' (.loose k) → V' 8 z = V 8 z ∧ V' 12 z = V 12 z) →
      (∀ p' ∈ els, ∀ f, f = 16 ∨ f = 20 → V' f p' = if lst f p' = F.home p t then (F.at' (F.home p t) ++ t :: (y ++ x)).headD 0 else V f p') →
      Lists ((F.put (F.home p t) (F.at' (F.home p t) ++ fromElem t (F.at' (.loose k)))).put (.loose k) []) els V' fl := by
    intro V' r1 r2 r3
    rw [hfrom]
    refine h.move hnl ?_ r1 trivial r2 r3 ?_ (fun _ _ => Iff.rfl) ?_ ?_
    · rw [List.append_nil]; exact hpm.append_left _
    · intro p' f hf
      rw [hhome] at hf
      unfold lst at hf
      split at hf <;> split at hf <;> simp at hf <;> rw [hf] <;> exact hpe
    · intro e he e' he'
      rw [kinds e he, kinds e' he']
    · intro e he
      rw [kinds e he]; exact home_place
  cases hl : F.at' (F.home p t) with
  | nil =>
    rw [hl] at hhd
    have h0 : V (listField (fl t)) p = 0 := hhd
    obtain ⟨Q, q1, q2, q3⟩ := add_sees s hpe hte ((h.mem _).1 ⟨_, hpv⟩) (fun hne => absurd h0 hne)
    refine ⟨Q, _, q1, q2, q3, ?_⟩
    rw [show ([] ++ fromElem t (F.at' (.loose k)) : List Nat) = F.at' (F.home p t) ++ fromElem t (F.at' (.loose k)) by rw [hl]]
    have e8 : addV V (listField (fl t)) p t 8 = V 8 := by
      unfold addV; rw [if_pos h0, setV_ne _ _ _ (by rcases listField_or (fl t) with h | h <;> omega)]
    have e12 : addV V (listField (fl t)) p t 12 = V 12 := by
      unfold addV; rw [if_pos h0, setV_ne _ _ _ (by rcases listField_or (fl t) with h | h <;> omega)]
    refine hfin _ ?_ ?_ ?_
    · rw [e8, e12, hl]; exact hrot
    · intro z _ _; rw [e8, e12]; exact ⟨rfl, rfl⟩
    · intro p' hp' f hf
      rw [hl]
      unfold addV
      rw [if_pos h0]
      by_cases hlf : lst f p' = F.home p t
      · rw [if_pos hlf]
        rw [hhome] at hlf
        obtain ⟨rfl, rfl⟩ := lst_inj hlf hf (listField_or _)
        rw [setV_self, upd_self]; rfl
      · rw [if_neg hlf]
        unfold setV
        split
        · rename_i hff
          refine upd_ne _ _ (fun hpp => hlf ?_)
          rw [hhome, hff, hpp]
        · rfl
  | cons a l =>
    rw [hl] at hhd hring
    have ha : V (listField (fl t)) p = a := hhd
    have hamem : a ∈ F.at' (F.home p t) := by rw [hl]; simp
    have hapv : V 12 a ∈ F.at' (F.home p t) := Circle.mem_pv (h.ring _) hamem
    have ha0 : a ≠ 0 := by have := s.lt ((h.mem a).1 ⟨_, hamem⟩); omega
    obtain ⟨Q, q1, q2, q3⟩ := add_sees s hpe hte ((h.mem _).1 ⟨_, hpv⟩) (fun _ => by rw [ha]; exact ⟨(h.mem _).1 ⟨_, hamem⟩, (h.mem _).1 ⟨_, hapv⟩⟩)
    refine ⟨Q, _, q1, q2, q3, ?_⟩
    have e : addV V (listField (fl t)) p t = joinV V a t := by unfold addV; rw [if_neg (by omega), ha]
    rw [e, ← hl]
    refine hfin _ ?_ ?_ ?_
    · rw [joinV8, joinV12, hl]
      refine ring_join hring hrot ?_
      rw [← hl]
      exact ((hpm.append_left _).nodup_iff).2 hnd
    · intro z z1 z2
      exact joinV_same (fun h' => z1 (h' ▸ hapv)) (fun h' => z2 (h' ▸ hpv)) (fun h' => z1 (h' ▸ hamem)) (fun h' => z2 (h' ▸ ht))
    · intro p' hp' f hf
      rw [joinV_head _ _ _ hf]
      split
      · rename_i hlf
        rw [h.head p' hp' f hf, hlf, hl]; rfl
      · rfl

theorem step_join {P : Pool} {F : Forest} {els V fl} (s : Sees P els V fl) (h : Lists F els V fl) {a b j k : Nat} (hjk : j ≠ k) (ha : a ∈ F.at' (.loose j)) (hb : b ∈ F.at' (.loose k))
    (htag : F.tag a = F.tag b) :
    ∃ Q V', P.join a b = .ok Q ∧ Sees Q els V' fl ∧ Only P Q els ∧
      Lists ((F.put (.loose j) (fromElem a (F.at' (.loose j)) ++ fromElem b (F.at' (.loose k)))).put (.loose k) []) els V' fl := by
  have hnl : (.loose j : Place) ≠ .loose k := by simpa using hjk
  have hapv := Circle.mem_pv (h.ring (.loose j)) ha
  have hbpv := Circle.mem_pv (h.ring (.loose k)) hb
  obtain ⟨Q, q1, q2, q3⟩ := join_sees s ((h.mem _).1 ⟨_, ha⟩) ((h.mem _).1 ⟨_, hb⟩) ((h.mem _).1 ⟨_, hapv⟩) ((h.mem _).1 ⟨_, hbpv⟩)
  refine ⟨Q, _, q1, q2, q3, ?_⟩
  obtain ⟨x, y, hxy, hx, hfa⟩ := split_at ha
  obtain ⟨x', y', hxy', hx', hfb⟩ := split_at hb
  have ra : Circle (V 8) (V 12) (a :: (y ++ x)) := by
    have := h.ring (.loose j); rw [hxy, Circle_rot] at this; exact this
  have rb : Circle (V 8) (V 12) (b :: (y' ++ x')) := by
    have := h.ring (.loose k); rw [hxy', Circle_rot] at this; exact this
  have pa : (a :: (y ++ x)).Perm (F.at' (.loose j)) := by
    rw [hxy]; exact List.perm_append_comm (l₁ := a :: y) (l₂ := x)
  have pb : (b :: (y' ++ x')).Perm (F.at' (.loose k)) := by
    rw [hxy']; exact List.perm_append_comm (l₁ := b :: y') (l₂ := x')
  have hnd : (F.at' (.loose j) ++ F.at' (.loose k)).Nodup := by
    rw [List.nodup_append]
    exact ⟨h.nodup _, h.nodup _, fun a ha b hb hab => hnl (h.disj _ _ a ha (hab ▸ hb))⟩
  have kinds : ∀ e ∈ F.at' (.loose j) ++ F.at' (.loose k), F.tag e = F.tag b := by
    intro e he
    rcases List.mem_append.1 he with he | he
    · rw [← htag]; exact h.loose j e he a ha
    · exact h.loose k e he b hb
  rw [hfa, hfb]
  refine h.move hnl ?_ ?_ trivial ?_ ?_ ?_ (fun _ _ => Iff.rfl) ?_ ?_
  · rw [List.append_nil]; exact pa.append pb
  · rw [joinV8, joinV12]
    exact ring_join ra rb ((pa.append pb).nodup_iff.2 hnd)
  · intro z z1 z2
    exact joinV_same (fun h' => z1 (h' ▸ hapv)) (fun h' => z2 (h' ▸ hbpv)) (fun h' => z1 (h' ▸ ha)) (fun h' => z2 (h' ▸ hb))
  · intro p hp f hf
    rw [joinV_head _ _ _ hf, if_neg (lst_ne_loose _ _ _)]
  · intro p f hf
    exact absurd hf (lst_ne_loose _ _ _)
  · intro e he e' he'
    rw [kinds e he, kinds e' he']
  · intro e _
    exact ⟨(fun p h' => nomatch h'), (fun p h' => nomatch h')⟩

theorem spliced_at {a : Nat} {m x y : List Nat} (hx : a ∉ x) : spliced a m (x ++ a :: y) = if x = [] then a :: y ++ m else x ++ m ++ a :: y := by
  unfold spliced
  cases x with
  | nil => simp
  | cons c x =>
    have hc : c ≠ a := fun h => hx (by simp [h])
    have hx' : ∀ z ∈ c :: x, (decide (z ≠ a)) = true := by intro z hz; simp; rintro rfl; exact hx hz
    rw [if_neg (by simp [hc]), if_neg (by simp)]
    rw [List.takeWhile_append_of_pos hx', List.dropWhile_append_of_pos hx']
    simp

/-- the circle of `b` comes into the list of `p` -/
theorem step_splice {P : Pool} {F : Forest} {els V fl} (s : Sees P els V fl) (h : Lists F els V fl) {p a b k : Nat} (ha : a ∈ F.at' (F.home p a)) (hb : b ∈ F.at' (.loose k))
    (htag : F.tag a = F.tag b) :
    ∃ Q V', P.join a b = .ok Q ∧ Sees Q els V' fl ∧ Only P Q els ∧
      Lists ((F.put (F.home p a) (spliced a (fromElem b (F.at' (.loose k))) (F.at' (F.home p a)))).put (.loose k) []) els V' fl := by
  have hae := (h.mem a).1 ⟨_, ha⟩
  have hhome := h.home (p := p) hae
  have hnl : F.home p a ≠ .loose k := by rw [hhome]; exact lst_ne_loose _ _ _
  have hpe : p ∈ els := h.own p (listField (fl a)) (by rw [← hhome]; exact List.ne_nil_of_mem ha)
  have hapv := Circle.mem_pv (h.ring (F.home p a)) ha
  have hbpv := Circle.mem_pv (h.ring (.loose k)) hb
  obtain ⟨Q, q1, q2, q3⟩ := join_sees s hae ((h.mem _).1 ⟨_, hb⟩) ((h.mem _).1 ⟨_, hapv⟩) ((h.mem _).1 ⟨_, hbpv⟩)
  refine ⟨Q, _, q1, q2, q3, ?_⟩
  obtain ⟨x, y, hxy, hx, hfa⟩ := split_at ha
  obtain ⟨x', y', hxy', hx', hfb⟩ := split_at hb
  have ra : Circle (V 8) (V 12) (a :: (y ++ x)) := by
    have := h.ring (F.home p a); rw [hxy, Circle_rot] at this; exact this
  have rb : Circle (V 8) (V 12) (b :: (y' ++ x')) := by
    have := h.ring (.loose k); rw [hxy', Circle_rot] at this; exact this
  have pa : (a :: (y ++ x)).Perm (F.at' (F.home p a)) := by
    rw [hxy]; exact List.perm_append_comm (l₁ := a :: y) (l₂ := x)
  have pb : (b :: (y' ++ x')).Perm (F.at' (.loose k)) := by
    rw [hxy']; exact List.perm_append_comm (l₁ := b :: y') (l₂ := x')
  have hnd : (F.at' (F.home p a) ++ F.at' (.loose k)).Nodup := by
    rw [List.nodup_append]
    exact ⟨h.nodup _, h.nodup _, fun a ha b hb hab => hnl (h.disj _ _ a ha (hab ▸ hb))⟩
  have kinds : ∀ e ∈ F.at' (F.home p a) ++ F.at' (.loose k), F.tag e = F.tag a := by
    intro e he
    rcases List.mem_append.1 he with he | he
    · exact home_kind h e he
    · rw [htag]; exact h.loose k e he b hb
  have rj := ring_join ra rb ((pa.append pb).nodup_iff.2 hnd)
  rw [← joinV8, ← joinV12] at rj
  have hrot : ∃ c d, (a :: (y ++ x)) ++ (b :: (y' ++ x')) = c ++ d ∧ spliced a (b :: (y' ++ x')) (F.at' (F.home p a)) = d ++ c := by
    rw [hxy, spliced_at hx]
    by_cases h0 : x = []
    · subst h0
      exact ⟨[], _, rfl, by simp⟩
    · rw [if_neg h0]
      exact ⟨a :: y, x ++ (b :: (y' ++ x')), by simp, by simp⟩
  have hhd : (spliced a (b :: (y' ++ x')) (F.at' (F.home p a))).headD 0 = (F.at' (F.home p a)).headD 0 := by
    rw [hxy, spliced_at hx]
    cases x <;> simp
  obtain ⟨c, d, hcd, hdc⟩ := hrot
  rw [hfb]
  refine h.move hnl ?_ ?_ trivial ?_ ?_ ?_ (fun _ _ => Iff.rfl) ?_ ?_
  · rw [List.append_nil, hdc]
    exact (List.perm_append_comm.trans (hcd ▸ List.Perm.refl _)).trans (pa.append pb)
  · rw [hdc, Circle_rot, ← hcd]
    exact rj
  · intro z z1 z2
    exact joinV_same (fun h' => z1 (h' ▸ hapv)) (fun h' => z2 (h' ▸ hbpv)) (fun h' => z1 (h' ▸ ha)) (fun h' => z2 (h' ▸ hb))
  · intro p' hp' f hf
    rw [joinV_head _ _ _ hf, hhd]
    split
    · next hl => rw [← hl]; exact h.head p' hp' f hf
    · rfl
  · intro p' f hf
    rw [hhome] at hf
    unfold lst at hf
    split at hf <;> split at hf <;> simp at hf <;> rw [hf] <;> exact hpe
  · intro e he e' he'
    rw [kinds e he, kinds e' he']
  · intro e he
    rw [kinds e he]; exact home_place

theorem removeV_head {V : Nat → Nat → Nat} {f p t k : Nat} (hk : k = 16 ∨ k = 20) : removeV V f p t k = removeV1 V f p t k := by
  unfold removeV
  rw [setV_ne _ _ _ (by omega), setV_ne _ _ _ (by omega), setV_ne _ _ _ (by omega), setV_ne _ _ _ (by omega)]

theorem removeV8 {V : Nat → Nat → Nat} {f p t : Nat} (hf : f = 16 ∨ f = 20) : removeV V f p t 8 = upd (upd (V 8) (V 12 t) (V 8 t)) t t := by
  unfold removeV
  rw [setV_self, setV_ne _ _ _ (by omega), setV_ne _ _ _ (by omega), setV_self, removeV1_link hf (by omega), removeV1_link hf (by omega)]

theorem removeV12 {V : Nat → Nat → Nat} {f p t : Nat} (hf : f = 16 ∨ f = 20) (hne : t ≠ V 12 t) : removeV V f p t 12 = upd (upd (V 12) (V 8 t) (V 12 t)) t t := by
  unfold removeV
  rw [setV_ne _ _ _ (by omega), setV_self, setV_self, setV_self, setV_ne _ _ _ (by omega), removeV1_link hf (by omega), removeV1_link hf (by omega), upd_ne _ _ hne]

theorem upd_id {g : Nat → Nat} {t : Nat} (h : g t = t) : upd g t t = g := by
  funext x
  unfold upd
  split
  · rename_i hx; rw [hx, h]
  · rfl

theorem removeV_single {V : Nat → Nat → Nat} {f p t : Nat} (hf : f = 16 ∨ f = 20) (h8 : V 8 t = t) (h12 : V 12 t = t) : removeV V f p t 8 = V 8 ∧ removeV V f p t 12 = V 12 := by
  refine ⟨by rw [removeV8 hf, h8, h12, upd_id h8, upd_id h8], ?_⟩
  unfold removeV
  rw [setV_ne _ _ _ (by omega), setV_self, setV_self, setV_self, setV_ne _ _ _ (by omega), removeV1_link hf (by omega), removeV1_link hf (by omega), h12, h8, upd_id h8, h8, upd_id h12, upd_id h12]

theorem headD_append (x y : List Nat) : (x ++ y).headD 0 = if x = [] then y.headD 0 else x.headD 0 := by
  cases x <;> simp

theorem or8_bit (x : UInt8) : ((x ||| 8) &&& 1 ≠ 0) ↔ (x &&& 1 ≠ 0) := by
  have : (x ||| 8) &&& 1 = x &&& 1 := by
    apply UInt8.eq_of_toBitVec_eq
    simp only [UInt8.toBitVec_and, UInt8.toBitVec_or]
    rw [BitVec.and_or_distrib_right]
    have : (8 : UInt8).toBitVec &&& (1 : UInt8).toBitVec = 0#8 := by decide
    rw [this, BitVec.or_zero]
  rw [this]

theorem step_remove {P : Pool} {F : Forest} {els V fl} (s : Sees P els V fl) (h : Lists F els V fl) {p t k : Nat} (ht : t ∈ F.at' (F.home p t)) (hk : F.at' (.loose k) = []) :
    ∃ Q V' fl', P.remove p (some (t : Int)) = .ok Q ∧ Sees Q els V' fl' ∧ Only P Q els ∧
      Lists ((F.put (F.home p t) ((F.at' (F.home p t)).erase t)).put (.loose k) [t]) els V' fl' := by
  have hte := (h.mem t).1 ⟨_, ht⟩
  have hhome := h.home (p := p) hte
  have hpe : p ∈ els := h.own p (listField (fl t)) (by rw [← hhome]; exact List.ne_nil_of_mem ht)
  have hnl : F.home p t ≠ .loose k := by rw [hhome]; exact lst_ne_loose _ _ _
  have hhd := h.head p hpe (listField (fl t)) (listField_or _)
  rw [← hhome] at hhd
  have hring := h.ring (F.home p t)
  have hpv := Circle.mem_pv hring ht
  have hnx := Circle.mem_nx hring ht
  obtain ⟨x, y, hxy, hx, -⟩ := split_at ht
  have hnd := h.nodup (F.home p t)
  have hpm : (t :: (y ++ x)).Perm (F.at' (F.home p t)) := by
    rw [hxy]; exact List.perm_append_comm (l₁ := t :: y) (l₂ := x)
  have hnd' : (t :: (y ++ x)).Nodup := hpm.nodup_iff.2 hnd
  have hty : t ∉ y := fun h' => (List.nodup_cons.1 hnd').1 (List.mem_append_left _ h')
  have hrot : Circle (V 8) (V 12) (t :: (y ++ x)) := by
    rw [hxy, Circle_rot] at hring; exact hring
  have ht0 := s.lt hte
  have hhd' : V (listField (fl t)) p = if x = [] then t else x.headD 0 := by
    rw [hhd, hxy, headD_append]; rfl
  have hhdmem : V (listField (fl t)) p ∈ F.at' (F.home p t) := by
    rw [hhd, hxy]
    cases x with
    | nil => simp
    | cons => simp
  have hh0 : V (listField (fl t)) p ≠ 0 := by
    have := s.lt ((h.mem _).1 ⟨_, hhdmem⟩); omega
  have hxt : x ≠ [] → x.headD 0 ≠ t := by
    intro hne h'
    cases x with
    | nil => exact hne rfl
    | cons b x => exact hx (by simp at h'; simp [h'])
  obtain ⟨Q, q1, q2, q3⟩ := remove_sees s hpe hte ((h.mem _).1 ⟨_, hpv⟩) ((h.mem _).1 ⟨_, hnx⟩) hh0
  refine ⟨Q, _, _, q1, q2, q3, ?_⟩
  have hlf := listField_or (fl t)
  have kinds : ∀ e ∈ F.at' (F.home p t) ++ F.at' (.loose k), F.tag e = F.tag t := by
    intro e he
    rw [hk, List.append_nil] at he
    exact home_kind h e he
  rw [hxy, erase_split hx]
  have hfin : (Circle (removeV V (listField (fl t)) p t 8) (removeV V (listField (fl t)) p t 12) (x ++ y)) → removeV V (listField (fl t)) p t 12 t = t →
      (∀ z, z ∉ F.at' (F.home p t) → removeV V (listField (fl t)) p t 8 z = V 8 z ∧ removeV V (listField (fl t)) p t 12 z = V 12 z) →
      (if V 8 t = t ∧ V 12 t = t then 0 else V 8 t) = y.headD 0 ∨ x ≠ [] →
      Lists ((F.put (F.home p t) (x ++ y)).put (.loose k) [t]) els (removeV V (listField (fl t)) p t) (fun z => if z = t then fl t ||| 8 else fl z) := by
    intro r1 r12 r2 r3
    refine h.move hnl ?_ r1 ?_ (fun z z1 _ => r2 z z1) ?_ ?_ ?_ ?_ ?_
    · rw [hk, List.append_nil, hxy]
      refine (List.perm_append_comm (l₁ := x ++ y) (l₂ := [t])).trans ?_
      exact (List.perm_middle (a := t) (l₁ := x) (l₂ := y)).symm
    · rw [Ring_single]
      exact ⟨by rw [removeV8 hlf, upd_self], r12⟩
    · intro p' hp' f hf
      rw [removeV_head hf]
      unfold removeV1
      by_cases hlst : lst f p' = F.home p t
      · rw [if_pos hlst]
        rw [hhome] at hlst
        obtain ⟨rfl, rfl⟩ := lst_inj hlst hf hlf
        by_cases hx0 : x = []
        · rw [if_pos (by rw [hhd', if_pos hx0]), setV_self, upd_self, hx0]
          rcases r3 with r3 | r3
          · exact r3
          · exact absurd hx0 r3
        · rw [if_neg (by rw [hhd', if_neg hx0]; exact hxt hx0), hhd', if_neg hx0, headD_append, if_neg hx0]
      · rw [if_neg hlst]
        split
        · unfold setV
          split
          · rename_i hff
            refine upd_ne _ _ (fun hpp => hlst ?_)
            rw [hhome, hff, hpp]
          · rfl
        · rfl
    · intro p' f hf
      rw [hhome] at hf
      unfold lst at hf
      split at hf <;> split at hf <;> simp at hf <;> rw [hf] <;> exact hpe
    · intro e _
      by_cases het : e = t
      · rw [if_pos het, het]; exact or8_bit _
      · rw [if_neg het]
    · intro e he e' he'
      rw [kinds e he, kinds e' he']
    · intro e he
      rw [kinds e he]; exact home_place
  cases hyx : y ++ x with
  | nil =>
    rw [hyx, Ring_single] at hrot
    obtain ⟨h8, h12⟩ := hrot
    obtain ⟨e8, e12⟩ := removeV_single (V := V) (p := p) hlf h8 h12
    obtain ⟨rfl, rfl⟩ := List.append_eq_nil_iff.1 hyx
    refine hfin trivial (by rw [e12]; exact h12) (fun z _ => by rw [e8, e12]; exact ⟨rfl, rfl⟩) (Or.inl ?_)
    rw [if_pos ⟨h8, h12⟩]; rfl
  | cons w m =>
    rw [hyx] at hrot hnd'
    have hw := Ring_next hrot
    have hwt : w ≠ t := fun h' => (List.nodup_cons.1 hnd').1 (by simp [h'])
    have hpt : t ≠ V 12 t := by
      intro h'
      obtain ⟨i, hi⟩ := Ring_last hrot
      rw [← h'] at hi
      have := not_dropLast hi hnd' t (by simp [List.dropLast])
      exact this rfl
    have e8 := removeV8 (V := V) (p := p) (t := t) hlf
    have e12 := removeV12 (V := V) (p := p) hlf hpt
    refine hfin ?_ ?_ ?_ ?_
    · rw [Circle_rot, hyx, e8, e12, hw]
      exact ring_remove hrot hnd'
    · rw [e12, upd_self]
    · intro z hz
      rw [e8, e12, upd_ne _ _ (ne_of_not_mem' hz ht), upd_ne _ _ (ne_of_not_mem' hz hpv), upd_ne _ _ (ne_of_not_mem' hz ht), upd_ne _ _ (ne_of_not_mem' hz hnx)]
      exact ⟨rfl, rfl⟩
    · by_cases hx0 : x = []
      · left
        rw [if_neg (fun h' => hwt (hw ▸ h'.1)), hw]
        rw [hx0, List.append_nil] at hyx
        rw [hyx]; rfl
      · exact Or.inr hx0

theorem map_split {t n : Nat} {x y : List Nat} (hx : t ∉ x) (hy : t ∉ y) : (x ++ t :: y).map (fun z => if z = t then n else z) = x ++ n :: y := by
  have key : ∀ l : List Nat, t ∉ l → l.map (fun z => if z = t then n else z) = l := by
    intro l hl
    rw [List.map_congr_left (g := id)]
    · simp
    · intro z hz
      rw [if_neg (ne_of_mem_of_not_mem' hz hl)]; rfl
  rw [List.map_append, List.map_cons, key x hx, key y hy, if_pos rfl]

theorem replaceV_facts {V : Nat → Nat → Nat} {p t n : Nat} (hnz : n ≠ V 8 t) :
    replaceV V p t n 8 = upd (upd (upd (V 8) n (V 8 t)) (V 12 t) n) t t ∧ replaceV V p t n 12 = upd (upd (upd (V 12) n (V 12 t)) (V 8 t) n) t t ∧
    (∀ k x, k = 16 ∨ k = 20 → replaceV V p t n k x = if x = p ∧ V k p = t then n else V k x) := by
  have hr : ∀ (W : Nat → Nat → Nat) f k, k ≠ f → replaceV1 W f p t n k = W k := by
    intro W f k hk
    unfold replaceV1
    split
    · exact setV_ne _ _ _ hk
    · rfl
  have hs : ∀ (W : Nat → Nat → Nat) f x, replaceV1 W f p t n f x = if x = p ∧ W f p = t then n else W f x := by
    intro W f x
    unfold replaceV1
    by_cases h1 : W f p = t
    · rw [if_pos h1, setV_self]
      unfold upd
      by_cases h2 : x = p
      · rw [if_pos h2, if_pos ⟨h2, h1⟩]
      · rw [if_neg h2, if_neg (fun h => h2 h.1)]
    · rw [if_neg h1, if_neg (fun h => h1 h.2)]
  have v1 : (setV V 8 n (V 8 t)) 12 t = V 12 t := by rw [setV_ne _ _ _ (by omega)]
  have v2 : (setV (setV V 8 n (V 8 t)) 12 n (V 12 t)) 8 n = V 8 t := by rw [setV_ne _ _ _ (by omega), setV_self, upd_self]
  have v3 : (setV (setV (setV V 8 n (V 8 t)) 12 n (V 12 t)) 12 (V 8 t) n) 12 n = V 12 t := by
    rw [setV_self, upd_ne _ _ hnz, setV_self, upd_self]
  unfold replaceV
  simp only [v1, v2, v3]
  refine ⟨?_, ?_, ?_⟩
  · rw [hr _ _ _ (by omega), hr _ _ _ (by omega), setV_self, setV_ne _ _ _ (by omega), setV_self, setV_ne _ _ _ (by omega), setV_ne _ _ _ (by omega), setV_self]
  · rw [hr _ _ _ (by omega), hr _ _ _ (by omega), setV_ne _ _ _ (by omega), setV_self, setV_ne _ _ _ (by omega), setV_self, setV_self, setV_ne _ _ _ (by omega)]
  · rintro k x (rfl | rfl)
    · rw [hr _ _ _ (by omega), hs]
      rw [setV_ne _ _ _ (by omega), setV_ne _ _ _ (by omega), setV_ne _ _ _ (by omega), setV_ne _ _ _ (by omega), setV_ne _ _ _ (by omega), setV_ne _ _ _ (by omega)]
    · rw [hs, hr _ _ _ (by omega)]
      rw [setV_ne _ _ _ (by omega), setV_ne _ _ _ (by omega), setV_ne _ _ _ (by omega), setV_ne _ _ _ (by omega), setV_ne _ _ _ (by omega), setV_ne _ _ _ (by omega)]

theorem step_replace {P : Pool} {F : Forest} {els V fl} (s : Sees P els V fl) (h : Lists F els V fl) {p t n k : Nat} (ht : t ∈ F.at' (F.home p t)) (h2 : 2 ≤ (F.at' (F.home p t)).length)
    (hk : F.at' (.loose k) = [n]) (htag : F.tag t = F.tag n) :
    ∃ Q V' fl', P.replace p t n = .ok Q ∧ Sees Q els V' fl' ∧ Only P Q els ∧
      Lists ((F.put (F.home p t) ((F.at' (F.home p t)).map (fun x => if x = t then n else x))).put (.loose k) [t]) els V' fl' := by
  have hte := (h.mem t).1 ⟨_, ht⟩
  have hnm : n ∈ F.at' (.loose k) := by rw [hk]; simp
  have hne := (h.mem n).1 ⟨_, hnm⟩
  have hhome := h.home (p := p) hte
  have hpe : p ∈ els := h.own p (listField (fl t)) (by rw [← hhome]; exact List.ne_nil_of_mem ht)
  have hnl : F.home p t ≠ .loose k := by rw [hhome]; exact lst_ne_loose _ _ _
  have hnot : n ∉ F.at' (F.home p t) := fun h' => hnl (h.disj _ _ n h' hnm)
  have htn : t ≠ n := fun h' => hnot (h' ▸ ht)
  have hring := h.ring (F.home p t)
  have hpv := Circle.mem_pv hring ht
  have hnx := Circle.mem_nx hring ht
  have hns : V 8 n = n ∧ V 12 n = n := by
    have := h.ring (.loose k); rw [hk, Ring_single] at this; exact this
  obtain ⟨x, y, hxy, hx, -⟩ := split_at ht
  have hnd := h.nodup (F.home p t)
  have hpm : (t :: (y ++ x)).Perm (F.at' (F.home p t)) := by
    rw [hxy]; exact List.perm_append_comm (l₁ := t :: y) (l₂ := x)
  have hnd' : (t :: (y ++ x)).Nodup := hpm.nodup_iff.2 hnd
  have hty : t ∉ y := fun h' => (List.nodup_cons.1 hnd').1 (List.mem_append_left _ h')
  have hrot : Circle (V 8) (V 12) (t :: (y ++ x)) := by
    rw [hxy, Circle_rot] at hring; exact hring
  have hnot' : n ∉ t :: (y ++ x) := fun h' => hnot (hpm.mem_iff.1 h')
  have hlf := listField_or (fl t)
  have hnz : n ≠ V 8 t := fun h' => hnot (h' ▸ hnx)
  cases hyx : y ++ x with
  | nil =>
    exfalso
    have := hpm.length_eq
    rw [hyx] at this
    simp at this; omega
  | cons w m =>
    rw [hyx] at hrot hnd' hnot'
    have hw := Ring_next hrot
    have hpt : t ≠ V 12 t := by
      intro h'
      obtain ⟨i, hi⟩ := Ring_last hrot
      rw [← h'] at hi
      exact not_dropLast hi hnd' t (by simp [List.dropLast]) rfl
    obtain ⟨Q, q1, q2, q3⟩ := replace_sees s hpe hte hne htn ((h.mem _).1 ⟨_, hpv⟩) ((h.mem _).1 ⟨_, hnx⟩) hns.1 hns.2 (Ne.symm hpt) (Ne.symm hnz)
    refine ⟨Q, _, _, q1, q2, q3, ?_⟩
    obtain ⟨e8, e12, eh⟩ := replaceV_facts (V := V) (p := p) hnz
    have kinds : ∀ e ∈ F.at' (F.home p t) ++ F.at' (.loose k), F.tag e = F.tag t := by
      intro e he
      rcases List.mem_append.1 he with he | he
      · exact home_kind h e he
      · rw [hk, List.mem_singleton] at he; rw [he, htag]
    rw [hxy, map_split hx hty]
    refine h.move hnl ?_ ?_ ?_ ?_ ?_ ?_ ?_ ?_ ?_
    · rw [hk, hxy]
      have a1 : (x ++ n :: y ++ [t]).Perm (n :: t :: (x ++ y)) :=
        (List.perm_append_comm (l₁ := x ++ n :: y) (l₂ := [t])).trans (((List.perm_middle).cons t).trans (List.Perm.swap _ _ _))
      have a2 : (x ++ t :: y ++ [n]).Perm (n :: t :: (x ++ y)) :=
        (List.perm_append_comm (l₁ := x ++ t :: y) (l₂ := [n])).trans ((List.perm_middle).cons n)
      exact a1.trans a2.symm
    · rw [Circle_rot]
      show Circle _ _ (n :: (y ++ x))
      rw [hyx, e8, e12, hw]
      exact ring_replace hrot hnd' hnot'
    · rw [Ring_single, e8, e12, upd_self, upd_self]
      exact ⟨rfl, rfl⟩
    · intro z z1 z2
      rw [e8, e12, upd_ne _ _ (ne_of_not_mem' z1 ht), upd_ne _ _ (ne_of_not_mem' z1 hpv), upd_ne _ _ (ne_of_not_mem' z2 hnm),
        upd_ne _ _ (ne_of_not_mem' z1 ht), upd_ne _ _ (ne_of_not_mem' z1 hnx), upd_ne _ _ (ne_of_not_mem' z2 hnm)]
      exact ⟨rfl, rfl⟩
    · intro p' hp' f hf
      rw [eh f p' hf]
      by_cases hlst : lst f p' = F.home p t
      · rw [if_pos hlst]
        have hh := h.head p' hp' f hf
        rw [hlst, hxy, headD_append] at hh
        rw [hhome] at hlst
        obtain ⟨rfl, rfl⟩ := lst_inj hlst hf hlf
        rw [headD_append]
        by_cases hx0 : x = []
        · rw [if_pos hx0] at hh ⊢
          rw [if_pos ⟨rfl, hh⟩]; rfl
        · rw [if_neg hx0] at hh ⊢
          rw [if_neg, hh]
          rintro ⟨-, h'⟩
          rw [hh] at h'
          cases x with
          | nil => exact hx0 rfl
          | cons b x => exact hx (by simp at h'; simp [h'])
      · rw [if_neg hlst]
        rw [if_neg]
        rintro ⟨rfl, h'⟩
        have hh := h.head p' hp' f hf
        rw [h'] at hh
        have hm : t ∈ F.at' (lst f p') := by
          cases hl : F.at' (lst f p') with
          | nil => rw [hl] at hh; have := s.lt hte; simp at hh; omega
          | cons b l => rw [hl] at hh; simp at hh; simp [hh]
        exact hlst (h.disj _ _ t hm ht)
    · intro p' f hf
      rw [hhome] at hf
      unfold lst at hf
      split at hf <;> split at hf <;> simp at hf <;> rw [hf] <;> exact hpe
    · intro e _
      by_cases het : e = t
      · rw [if_pos het, het]; exact or8_bit _
      · rw [if_neg het]
    · intro e he e' he'
      rw [kinds e he, kinds e' he']
    · intro e he
      rw [kinds e he]; exact home_place

theorem step_made {F : Forest} {els V fl} (h : Lists F els V fl) {o k : Nat} {b : Bool} {f : UInt8} (hno : o ∉ els) (hk : F.at' (.loose k) = []) (hf : (f &&& 1 ≠ 0) ↔ b = true) :
    Lists { F.put (.loose k) [o] with tag := fun e => if e = o then b else F.tag e } (o :: els) (madeV V o) (fun y => if y = o then f else fl y) := by
  have hat : ∀ r, (F.put (.loose k) [o]).at' r = if r = .loose k then [o] else F.at' r := fun r => rfl
  have hin : ∀ q, ∀ e ∈ F.at' q, e ≠ o := fun q e he => ne_of_mem_of_not_mem' ((h.mem e).1 ⟨q, he⟩) hno
  refine ⟨?_, ?_, ?_, ?_, ?_, ?_, ?_, ?_, ?_, ?_⟩
  · intro e
    constructor
    · rintro ⟨q, hq⟩
      replace hq : e ∈ (F.put (.loose k) [o]).at' q := hq
      rw [hat] at hq
      split at hq
      · exact List.mem_cons.2 (Or.inl (List.mem_singleton.1 hq))
      · exact List.mem_cons_of_mem _ ((h.mem e).1 ⟨q, hq⟩)
    · intro he
      rcases List.mem_cons.1 he with rfl | he
      · exact ⟨.loose k, by show e ∈ (F.put (.loose k) [e]).at' _; rw [put_at, if_pos rfl]; simp⟩
      · obtain ⟨q, hq⟩ := (h.mem e).2 he
        refine ⟨q, ?_⟩
        show e ∈ (F.put (.loose k) [o]).at' q
        rw [hat, if_neg (fun h' => by rw [h', hk] at hq; simp at hq)]
        exact hq
  · intro q
    show ((F.put (.loose k) [o]).at' q).Nodup
    rw [hat]
    split
    · simp
    · exact h.nodup q
  · intro q r e hq hr
    replace hq : e ∈ (F.put (.loose k) [o]).at' q := hq
    replace hr : e ∈ (F.put (.loose k) [o]).at' r := hr
    rw [hat] at hq hr
    split at hq <;> split at hr
    · rename_i a b; rw [a, b]
    · exact absurd (List.mem_singleton.1 hq) (hin _ _ hr)
    · exact absurd (List.mem_singleton.1 hr) (hin _ _ hq)
    · exact h.disj _ _ e hq hr
  · intro q
    show Circle _ _ ((F.put (.loose k) [o]).at' q)
    rw [hat]
    split
    · rw [Ring_single]
      unfold madeV
      simp
    · refine Ring_congr ?_ ?_ (h.ring q)
      · intro x hx; unfold madeV; rw [if_neg (hin _ _ hx)]
      · intro x hx; unfold madeV; rw [if_neg (hin _ _ hx)]
  · intro p hp f hf
    show _ = ((F.put (.loose k) [o]).at' (lst f p)).headD 0
    rw [hat, if_neg (lst_ne_loose _ _ _)]
    unfold madeV
    rcases List.mem_cons.1 hp with rfl | hp
    · rw [if_pos rfl, if_neg (by omega)]
      cases hl : F.at' (lst f p) with
      | nil => rfl
      | cons a l => exact absurd (h.own p f (by rw [hl]; simp)) hno
    · rw [if_neg (ne_of_mem_of_not_mem' hp hno)]; exact h.head p hp f hf
  · intro p f hne
    replace hne : (F.put (.loose k) [o]).at' (lst f p) ≠ [] := hne
    rw [hat, if_neg (lst_ne_loose _ _ _)] at hne
    exact List.mem_cons_of_mem _ (h.own p f hne)
  · intro e he
    simp only
    by_cases heo : e = o
    · rw [if_pos heo, if_pos heo]; exact hf
    · rw [if_neg heo, if_neg heo]
      rcases List.mem_cons.1 he with h' | h'
      · exact absurd h' heo
      · exact h.bit e h'
  · intro p e he
    replace he : e ∈ (F.put (.loose k) [o]).at' (.kids p) := he
    rw [hat, if_neg (by simp)] at he
    simp only
    rw [if_neg (hin _ _ he)]; exact h.kids p e he
  · intro p e he
    replace he : e ∈ (F.put (.loose k) [o]).at' (.attrs p) := he
    rw [hat, if_neg (by simp)] at he
    simp only
    rw [if_neg (hin _ _ he)]; exact h.attrs p e he
  · intro j e he e' he'
    replace he : e ∈ (F.put (.loose k) [o]).at' (.loose j) := he
    replace he' : e' ∈ (F.put (.loose k) [o]).at' (.loose j) := he'
    rw [hat] at he he'
    simp only
    split at he
    · rename_i hj
      rw [if_pos hj] at he'
      rw [List.mem_singleton.1 he, List.mem_singleton.1 he']
    · rename_i hj
      rw [if_neg hj] at he'
      rw [if_neg (hin _ _ he), if_neg (hin _ _ he')]
      exact h.loose j e he e' he'

theorem tagFlag_bit (b : Bool) : (tagFlag b &&& 1 ≠ 0) ↔ b = true := by cases b <;> decide

/-- all attributes are detached -/
theorem step_cut {P : Pool} {F : Forest} {els V fl} (s : Sees P els V fl) (h : Lists F els V fl) {e k : Nat} (he : F.Elem e) (hk : F.at' (.loose k) = []) :
    ∃ Q V', P.wr (e + 20) (le32 0) = .ok Q ∧ Sees Q els V' fl ∧ Only P Q els ∧ Lists ((F.put (.attrs e) []).put (.loose k) (F.at' (.attrs e))) els V' fl := by
  have hee := (h.mem e).1 he
  obtain ⟨Q, h1, h2, h3⟩ := s.set (k := 20) (v := 0) hee (by unfold IsPtr; decide) (by decide) (e + 20) 0 rfl rfl
  refine ⟨Q, _, h1, h2, h3, h.move (by simp) ?_ trivial ?_ ?_ ?_ ?_ (fun _ _ => Iff.rfl) ?_ ?_⟩
  · rw [hk]; simp
  · rw [setV_ne _ _ _ (by decide), setV_ne _ _ _ (by decide)]; exact h.ring _
  · intro x _ _; exact ⟨by rw [setV_ne _ _ _ (by decide)], by rw [setV_ne _ _ _ (by decide)]⟩
  · intro p hp f hf
    rcases hf with rfl | rfl <;> simp [setV, lst, upd]
  · intro p f hf
    unfold lst at hf
    split at hf <;> simp at hf
    rw [hf]; exact hee
  · intro a ha b hb
    rw [hk, List.append_nil] at ha hb
    rw [h.attrs e a ha, h.attrs e b hb]
  · intro a ha
    rw [hk, List.append_nil] at ha
    exact ⟨by simp, fun _ _ => h.attrs e a ha⟩

/-- detached attributes are given to an element -/
theorem step_tie {P : Pool} {F : Forest} {els V fl} (s : Sees P els V fl) (h : Lists F els V fl) {e k : Nat} (he : F.Elem e) (h0 : F.at' (.attrs e) = [])
    (ht : ∀ a ∈ F.at' (.loose k), F.tag a = false) :
    ∃ Q V', P.wr (e + 20) (le32 ((F.at' (.loose k)).headD 0 : Nat)) = .ok Q ∧ Sees Q els V' fl ∧ Only P Q els ∧ Lists ((F.put (.attrs e) (F.at' (.loose k))).put (.loose k) []) els V' fl := by
  have hee := (h.mem e).1 he
  have hv : (F.at' (.loose k)).headD 0 < 2147483648 := by
    cases hl : F.at' (.loose k) with
    | nil => simp
    | cons a l =>
      have ha := (h.mem a).1 ⟨.loose k, by rw [hl]; simp⟩
      have := s.range a ha
      have := s.ok.le; have := s.ok.lim; have := s.ok.map; have := s.small
      simp only [List.headD_cons]
      omega
  obtain ⟨Q, h1, h2, h3⟩ := s.set (k := 20) hee (by unfold IsPtr; decide) hv (e + 20) _ rfl rfl
  refine ⟨Q, _, h1, h2, h3, h.move (by simp) ?_ ?_ trivial ?_ ?_ ?_ (fun _ _ => Iff.rfl) ?_ ?_⟩
  · rw [h0]; simp
  · rw [setV_ne _ _ _ (by decide), setV_ne _ _ _ (by decide)]; exact h.ring _
  · intro x _ _; exact ⟨by rw [setV_ne _ _ _ (by decide)], by rw [setV_ne _ _ _ (by decide)]⟩
  · intro p hp f hf
    rcases hf with rfl | rfl <;> simp [setV, lst, upd]
  · intro p f hf
    unfold lst at hf
    split at hf <;> simp at hf
    rw [hf]; exact hee
  · intro a ha b hb
    rw [h0, List.nil_append] at ha hb
    rw [ht a ha, ht b hb]
  · intro a ha
    rw [h0, List.nil_append] at ha
    exact ⟨by simp, fun _ _ => ht a ha⟩

/-- one call on existing elements: it succeeds, and the links represent the result -/
theorem step_spec {P : Pool} {F G : Forest} {op : ListOp} {els V fl} (s : Sees P els V fl) (h : Lists F els V fl) (hs : Step F op G) :
    ∃ Q V' fl', op.run P = .ok Q ∧ Sees Q els V' fl' ∧ Only P Q els ∧ Lists G els V' fl' := by
  cases hs with
  | add hp ht =>
    obtain ⟨Q, V', h1, h2, h3, h4⟩ := step_add s h hp ht
    exact ⟨Q, V', fl, h1, h2, h3, h4⟩
  | join hjk ha hb ht =>
    obtain ⟨Q, V', h1, h2, h3, h4⟩ := step_join s h hjk ha hb ht
    exact ⟨Q, V', fl, h1, h2, h3, h4⟩
  | splice ha hb ht =>
    obtain ⟨Q, V', h1, h2, h3, h4⟩ := step_splice s h ha hb ht
    exact ⟨Q, V', fl, h1, h2, h3, h4⟩
  | remove ht hk => exact step_remove s h ht hk
  | replace ht h2 hk htag => exact step_replace s h ht h2 hk htag
  | cut he hk =>
    obtain ⟨Q, V', h1, h2, h3, h4⟩ := step_cut s h he hk
    exact ⟨Q, V', fl, h1, h2, h3, h4⟩
  | tie he h0 ht =>
    obtain ⟨Q, V', h1, h2, h3, h4⟩ := step_tie s h he h0 ht
    exact ⟨Q, V', fl, h1, h2, h3, h4⟩

theorem hist_rep {E : Env} {maxSize : Nat} (h1 : 0x4000 ≤ maxSize) (h2 : maxSize < 2147483648) {P : Pool} {F : Forest} (h : Hist E maxSize P F) :
    ∃ els V fl, Sees P els V fl ∧ Lists F els V fl := by
  induction h with
  | start =>
    refine ⟨[], fun _ _ => 0, fun _ => 0, ⟨empty_ok h1, h2, by simp, by simp, by simp, by simp, by simp, by simp⟩, ⟨?_, by simp, by simp, fun _ => trivial, by simp, by simp, by simp, by simp, by simp, by simp⟩⟩
    intro e
    simp [Forest.Elem]
  | made _ hm hk ih =>
    obtain ⟨els, V, fl, s, r⟩ := ih
    obtain ⟨s', hno⟩ := made_sees s hm
    exact ⟨_, _, _, s', step_made r hno hk (tagFlag_bit _)⟩
  | refused _ hm ih =>
    obtain ⟨els, V, fl, s, r⟩ := ih
    exact ⟨els, V, fl, s.got (make_spec s.ok hm).1, r⟩
  | step _ hs hr ih =>
    obtain ⟨els, V, fl, s, r⟩ := ih
    obtain ⟨Q, V', fl', h1, h2, -, h4⟩ := step_spec s r hs
    rw [hr] at h1
    cases h1
    exact ⟨els, V', fl', h2, h4⟩

end BX
