import Verif.Lemmas.RingRep
import Verif.Spec.Joins
/-
The calls of `join` on elements that are in a list, or in the same circle.
-/
namespace BX
open XBT Spec

/-- exchanging the predecessors of two elements of one circle gives two circles -/
theorem ring_split {nx pv : Nat → Nat} {a b : Nat} {l m : List Nat} (h : Circle nx pv (a :: l ++ b :: m)) (hn : (a :: l ++ b :: m).Nodup) :
    Circle (upd (upd nx (pv b) a) (pv a) b) (upd (upd pv a (pv b)) b (pv a)) (a :: l) ∧ Circle (upd (upd nx (pv b) a) (pv a) b) (upd (upd pv a (pv b)) b (pv a)) (b :: m) := by
  obtain ⟨n1, n2, n3⟩ := List.nodup_append.1 hn
  have h' : Circle nx pv (b :: m ++ a :: l) := (Circle_rot _ _).1 h
  obtain ⟨i, z, hi⟩ := exists_last a l
  obtain ⟨j, w, hj⟩ := exists_last b m
  have hza := last_mem hi
  have hwb := last_mem hj
  have e1 : a :: (l ++ b :: m) = (a :: l ++ j) ++ [w] := by rw [List.append_assoc, ← hj]; rfl
  have e2 : b :: (m ++ a :: l) = (b :: m ++ i) ++ [z] := by rw [List.append_assoc, ← hi]; rfl
  obtain ⟨L1, f1, g1⟩ := (Circle_iff e1).1 h
  obtain ⟨L2, f2, g2⟩ := (Circle_iff e2).1 h'
  have hba : b ≠ a := fun h => n3 a (by simp) b (by simp) h.symm
  have hz : z ≠ w := fun h => n3 _ hza _ hwb h
  have la : Links nx pv (a :: l) := by
    rw [show a :: (l ++ b :: m) = (a :: l) ++ b :: m from rfl, Links_append, hi, List.append_assoc, show ([z] ++ [b] : List Nat) = z :: [b] from rfl, Links_append, ← hi] at L1
    exact L1.1.1
  have lb : Links nx pv (b :: m) := by
    rw [show b :: (m ++ a :: l) = (b :: m) ++ a :: l from rfl, Links_append, hj, List.append_assoc, show ([w] ++ [a] : List Nat) = w :: [a] from rfl, Links_append, ← hj] at L2
    exact L2.1.1
  have pa : pv a = w := g1
  have pb : pv b = z := g2
  rw [pa, pb]
  constructor
  · refine (Circle_iff hi).2 ⟨?_, ?_, ?_⟩
    · refine Links_congr _ ?_ ?_ la
      · intro x hx
        have hx' : x ∈ a :: l := List.dropLast_subset _ hx
        rw [upd_ne _ _ (fun h => n3 _ hx' _ hwb h), upd_ne _ _ (not_dropLast hi n1 x hx)]
      · intro y hy
        have hy' : y ∈ a :: l := List.mem_of_mem_tail hy
        rw [upd_ne _ _ (fun h => n3 _ hy' b (by simp) h), upd_ne _ _ (not_tail n1 y hy)]
    · rw [upd_ne _ _ hz, upd_self]
    · rw [upd_ne _ _ (Ne.symm hba), upd_self]
  · refine (Circle_iff hj).2 ⟨?_, ?_, ?_⟩
    · refine Links_congr _ ?_ ?_ lb
      · intro x hx
        have hx' : x ∈ b :: m := List.dropLast_subset _ hx
        rw [upd_ne _ _ (not_dropLast hj n2 x hx), upd_ne _ _ (fun h => n3 _ hza _ hx' h.symm)]
      · intro y hy
        have hy' : y ∈ b :: m := List.mem_of_mem_tail hy
        rw [upd_ne _ _ (not_tail n2 y hy), upd_ne _ _ (fun h => n3 a (by simp) _ hy' h.symm)]
    · rw [upd_self]
    · rw [upd_self]

/-- the circle of `a` comes into the list of `p`, in front of its element `b` -/
theorem join_insert {P : Pool} {F : Forest} {els V fl} (s : Sees P els V fl) (h : Lists F els V fl) {p a b k : Nat} (ha : a ∈ F.at' (.loose k)) (hb : b ∈ F.at' (F.home p b))
    (htag : F.tag a = F.tag b) :
    ∃ Q V', P.join a b = .ok Q ∧ Sees Q els V' fl ∧
      Lists ((F.put (F.home p b) (spliced b (fromElem a (F.at' (.loose k))) (F.at' (F.home p b)))).put (.loose k) []) els V' fl := by
  have hbe := (h.mem b).1 ⟨_, hb⟩
  have hhome := h.home (p := p) hbe
  have hnl : F.home p b ≠ .loose k := by rw [hhome]; exact lst_ne_loose _ _ _
  have hpe : p ∈ els := h.own p (listField (fl b)) (by rw [← hhome]; exact List.ne_nil_of_mem hb)
  have hapv := Circle.mem_pv (h.ring (.loose k)) ha
  have hbpv := Circle.mem_pv (h.ring (F.home p b)) hb
  obtain ⟨Q, q1, q2, -⟩ := join_sees s ((h.mem _).1 ⟨_, ha⟩) hbe ((h.mem _).1 ⟨_, hapv⟩) ((h.mem _).1 ⟨_, hbpv⟩)
  refine ⟨Q, _, q1, q2, ?_⟩
  obtain ⟨x, y, hxy, hx, hfa⟩ := split_at hb
  obtain ⟨x', y', hxy', hx', hfb⟩ := split_at ha
  have rb : Circle (V 8) (V 12) (b :: (y ++ x)) := by
    have := h.ring (F.home p b); rw [hxy, Circle_rot] at this; exact this
  have ra : Circle (V 8) (V 12) (a :: (y' ++ x')) := by
    have := h.ring (.loose k); rw [hxy', Circle_rot] at this; exact this
  have pb : (b :: (y ++ x)).Perm (F.at' (F.home p b)) := by
    rw [hxy]; exact List.perm_append_comm (l₁ := b :: y) (l₂ := x)
  have pa : (a :: (y' ++ x')).Perm (F.at' (.loose k)) := by
    rw [hxy']; exact List.perm_append_comm (l₁ := a :: y') (l₂ := x')
  have hnd : (F.at' (.loose k) ++ F.at' (F.home p b)).Nodup := by
    rw [List.nodup_append]
    exact ⟨h.nodup _, h.nodup _, fun a ha b hb hab => hnl (h.disj _ _ b hb (hab ▸ ha))⟩
  have kinds : ∀ e ∈ F.at' (F.home p b) ++ F.at' (.loose k), F.tag e = F.tag b := by
    intro e he
    rcases List.mem_append.1 he with he | he
    · exact home_kind h e he
    · rw [← htag]; exact h.loose k e he a ha
  have rj := ring_join ra rb ((pa.append pb).nodup_iff.2 hnd)
  rw [← joinV8, ← joinV12] at rj
  have hrot : ∃ c d, (a :: (y' ++ x')) ++ (b :: (y ++ x)) = c ++ d ∧ spliced b (a :: (y' ++ x')) (F.at' (F.home p b)) = d ++ c := by
    rw [hxy, spliced_at hx]
    by_cases h0 : x = []
    · subst h0
      exact ⟨a :: (y' ++ x'), b :: (y ++ []), rfl, by simp⟩
    · rw [if_neg h0]
      exact ⟨a :: (y' ++ x') ++ b :: y, x, by simp, by simp⟩
  have hhd : (spliced b (a :: (y' ++ x')) (F.at' (F.home p b))).headD 0 = (F.at' (F.home p b)).headD 0 := by
    rw [hxy, spliced_at hx]
    cases x <;> simp
  obtain ⟨c, d, hcd, hdc⟩ := hrot
  rw [hfb]
  refine h.move hnl ?_ ?_ trivial ?_ ?_ ?_ (fun _ _ => Iff.rfl) ?_ ?_
  · rw [List.append_nil, hdc]
    exact ((List.perm_append_comm.trans (hcd ▸ List.Perm.refl _)).trans (pa.append pb)).trans List.perm_append_comm
  · rw [hdc, Circle_rot, ← hcd]
    exact rj
  · intro z z1 z2
    exact joinV_same (fun h' => z2 (h' ▸ hapv)) (fun h' => z1 (h' ▸ hbpv)) (fun h' => z2 (h' ▸ ha)) (fun h' => z1 (h' ▸ hb))
  · intro p' hp' f hf
    rw [joinV_head _ _ _ hf, hhd]
    split
    · next hl => rw [← hl]; exact h.head p' hp' f hf
    · rfl
  · intro p' f hf
    rw [hhome] at hf
    unfold lst at hf
    split at hf <;> split at hf <;> simp at hf <;> rw [hf] <;> exact hpe
  · intro e he e' he'
    rw [kinds e he, kinds e' he']
  · intro e he
    rw [kinds e he]; exact home_place

theorem Circle.nx_pv {nx pv : Nat → Nat} {l : List Nat} (h : Circle nx pv l) {t : Nat} (ht : t ∈ l) : nx (pv t) = t := by
  obtain ⟨x, y, hxy, -, -⟩ := split_at ht
  rw [hxy, Circle_rot] at h
  obtain ⟨i, z, hi⟩ := exists_last t (y ++ x)
  obtain ⟨-, h2, h3⟩ := (Circle_iff hi).1 h
  rw [h3, h2]

/-- an element joined to itself -/
theorem join_self {P : Pool} {F : Forest} {els V fl} (s : Sees P els V fl) (h : Lists F els V fl) {a : Nat} (ha : F.Elem a) :
    ∃ Q V', P.join a a = .ok Q ∧ Sees Q els V' fl ∧ Lists F els V' fl := by
  obtain ⟨q, hq⟩ := ha
  have hae := (h.mem a).1 ⟨_, hq⟩
  have hap := (h.mem _).1 ⟨_, Circle.mem_pv (h.ring q) hq⟩
  obtain ⟨Q, q1, q2, -⟩ := join_sees s hae hae hap hap
  refine ⟨Q, _, q1, q2, ?_⟩
  have e8 : joinV V a a 8 = V 8 := by
    rw [joinV8]
    funext x
    by_cases hx : x = V 12 a
    · rw [hx, upd_self, Circle.nx_pv (h.ring q) hq]
    · rw [upd_ne _ _ hx, upd_ne _ _ hx]
  have e12 : joinV V a a 12 = V 12 := by
    rw [joinV12]
    funext x
    by_cases hx : x = a
    · rw [hx, upd_self]
    · rw [upd_ne _ _ hx, upd_ne _ _ hx]
  refine ⟨h.mem, h.nodup, h.disj, ?_, ?_, h.own, h.bit, h.kids, h.attrs, h.loose⟩
  · rw [e8, e12]; exact h.ring
  · intro p hp k hk
    rw [joinV_head _ _ _ hk]; exact h.head p hp k hk

/-- two elements of one list -/
theorem join_split {P : Pool} {F : Forest} {els V fl} (s : Sees P els V fl) (h : Lists F els V fl) {q : Place} {x y z : List Nat} {a b c d k : Nat} (hq : F.at' q = x ++ c :: y ++ d :: z)
    (hk : F.at' (.loose k) = []) (hab : a = c ∧ b = d ∨ a = d ∧ b = c) :
    ∃ Q V', P.join a b = .ok Q ∧ Sees Q els V' fl ∧
      Lists (if x = [] then (F.put q (c :: y)).put (.loose k) (d :: z) else (F.put q (x ++ d :: z)).put (.loose k) (c :: y)) els V' fl := by
  have hc : c ∈ F.at' q := by rw [hq]; simp
  have hd : d ∈ F.at' q := by rw [hq]; simp
  have ha : a ∈ F.at' q := by rcases hab with ⟨rfl, _⟩ | ⟨rfl, _⟩ <;> assumption
  have hb : b ∈ F.at' q := by rcases hab with ⟨_, rfl⟩ | ⟨_, rfl⟩ <;> assumption
  have hnl : q ≠ .loose k := by rintro rfl; rw [hk] at hc; simp at hc
  have hapv := Circle.mem_pv (h.ring q) ha
  have hbpv := Circle.mem_pv (h.ring q) hb
  obtain ⟨Q, q1, q2, -⟩ := join_sees s ((h.mem _).1 ⟨_, ha⟩) ((h.mem _).1 ⟨_, hb⟩) ((h.mem _).1 ⟨_, hapv⟩) ((h.mem _).1 ⟨_, hbpv⟩)
  refine ⟨Q, _, q1, q2, ?_⟩
  have hn := h.nodup q
  have hr := h.ring q
  rw [hq] at hn hr
  have p1 : (x ++ c :: y ++ d :: z).Perm (c :: y ++ d :: (z ++ x)) := by
    rw [List.append_assoc]
    refine List.perm_append_comm.trans ?_
    simp
  have r1 : Circle (V 8) (V 12) (c :: y ++ d :: (z ++ x)) := by
    rw [List.append_assoc, Circle_rot] at hr
    simpa using hr
  have two : Circle (joinV V a b 8) (joinV V a b 12) (c :: y) ∧ Circle (joinV V a b 8) (joinV V a b 12) (d :: (z ++ x)) := by
    rw [joinV8, joinV12]
    rcases hab with ⟨rfl, rfl⟩ | ⟨rfl, rfl⟩
    · exact ring_split r1 (p1.nodup_iff.1 hn)
    · exact (ring_split ((Circle_rot _ _).1 r1) ((List.perm_append_comm.nodup_iff).1 (p1.nodup_iff.1 hn))).symm
  have same : ∀ w, w ∉ F.at' q → w ∉ F.at' (.loose k) → joinV V a b 8 w = V 8 w ∧ joinV V a b 12 w = V 12 w := fun w w1 _ =>
    joinV_same (fun h' => w1 (h' ▸ hapv)) (fun h' => w1 (h' ▸ hbpv)) (fun h' => w1 (h' ▸ ha)) (fun h' => w1 (h' ▸ hb))
  have own : ∀ p f, lst f p = q → p ∈ els := by
    intro p f hf
    exact h.own p f (by rw [hf, hq]; simp)
  have kinds : ∀ e ∈ F.at' q, F.tag e = F.tag c := by
    intro e he
    cases q with
    | kids p => rw [h.kids p e he, h.kids p c hc]
    | attrs p => rw [h.attrs p e he, h.attrs p c hc]
    | loose j => exact h.loose j e he c hc
  have place : ∀ e ∈ F.at' q ++ F.at' (.loose k), (∀ p, q = .kids p → F.tag e = true) ∧ (∀ p, q = .attrs p → F.tag e = false) := by
    intro e he
    rw [hk, List.append_nil] at he
    exact ⟨fun p hp => h.kids p e (hp ▸ he), fun p hp => h.attrs p e (hp ▸ he)⟩
  have kind2 : ∀ e ∈ F.at' q ++ F.at' (.loose k), ∀ e' ∈ F.at' q ++ F.at' (.loose k), F.tag e = F.tag e' := by
    intro e he e' he'
    rw [hk, List.append_nil] at he he'
    rw [kinds e he, kinds e' he']
  have head : ∀ l : List Nat, l.headD 0 = (F.at' q).headD 0 → ∀ p ∈ els, ∀ f, f = 16 ∨ f = 20 → joinV V a b f p = if lst f p = q then l.headD 0 else V f p := by
    intro l hl p hp f hf
    rw [joinV_head _ _ _ hf, hl]
    split
    · next hl => rw [← hl]; exact h.head p hp f hf
    · rfl
  by_cases h0 : x = []
  · subst h0
    rw [if_pos rfl]
    refine h.move hnl ?_ two.1 ?_ same (head _ (by rw [hq]; rfl)) own (fun _ _ => Iff.rfl) kind2 place
    · rw [hq, hk]; simp
    · simpa using two.2
  · rw [if_neg h0]
    refine h.move hnl ?_ ?_ two.1 same (head _ (by rw [hq]; cases x <;> simp at h0 ⊢)) own (fun _ _ => Iff.rfl) kind2 place
    · rw [hq, hk, List.append_nil]
      refine List.Perm.trans ?_ p1.symm
      refine List.perm_append_comm.trans ?_
      exact List.Perm.append_left _ List.perm_append_comm
    · rw [Circle_rot]; exact two.2

/-- one of these calls: it succeeds, and the links represent the result -/
theorem otherJoin_spec {P : Pool} {F G : Forest} {a b : Nat} {els V fl} (s : Sees P els V fl) (h : Lists F els V fl) (hs : OtherJoin F a b G) :
    ∃ Q V', P.join a b = .ok Q ∧ Sees Q els V' fl ∧ Lists G els V' fl := by
  cases hs with
  | insert ha hb ht => exact join_insert s h ha hb ht
  | self ha => exact join_self s h ha
  | split hq hk hab => exact join_split s h hq hk hab

theorem anyHist_rep {E : Env} {maxSize : Nat} (h1 : 0x4000 ≤ maxSize) (h2 : maxSize < 2147483648) {P : Pool} {F : Forest} (h : AnyHist E maxSize P F) :
    ∃ els V fl, Sees P els V fl ∧ Lists F els V fl := by
  induction h with
  | start => exact hist_rep (E := E) h1 h2 .start
  | made _ hm hk ih =>
    obtain ⟨els, V, fl, s, r⟩ := ih
    obtain ⟨s', hno⟩ := made_sees s hm
    exact ⟨_, _, _, s', step_made r hno hk (tagFlag_bit _)⟩
  | refused _ hm ih =>
    obtain ⟨els, V, fl, s, r⟩ := ih
    exact ⟨els, V, fl, s.got (make_spec s.ok hm).1, r⟩
  | step _ hs hr ih =>
    obtain ⟨els, V, fl, s, r⟩ := ih
    obtain ⟨Q, V', fl', h1, h2, -, h4⟩ := step_spec s r hs
    rw [hr] at h1
    cases h1
    exact ⟨els, V', fl', h2, h4⟩
  | joined _ hs hr ih =>
    obtain ⟨els, V, fl, s, r⟩ := ih
    obtain ⟨Q, V', h1, h2, h4⟩ := otherJoin_spec s r hs
    rw [hr] at h1
    cases h1
    exact ⟨els, V', fl, h2, h4⟩

end BX
