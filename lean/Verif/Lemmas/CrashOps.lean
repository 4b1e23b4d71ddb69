import Verif.Lemmas.Crash
/-
The links while a call is being made.
-/
namespace BX
open XBT Spec

theorem setVs_nil (V : Nat → Nat → Nat) : setVs V [] = V := rfl
theorem setVs_link (V : Nat → Nat → Nat) (k e v : Nat) (xs : List LStore) : setVs V (.link k e v :: xs) = setVs (setV V k e v) xs := rfl
theorem setVs_flag (V : Nat → Nat → Nat) (e : Nat) (x : UInt8) (xs : List LStore) : setVs V (.flag e x :: xs) = setVs V xs := rfl
theorem setVs_append (V : Nat → Nat → Nat) (xs ys : List LStore) : setVs V (xs ++ ys) = setVs (setVs V xs) ys := List.foldl_append

theorem setV_at (V : Nat → Nat → Nat) (k e v j x : Nat) : setV V k e v j x = if j = k ∧ x = e then v else V j x := by
  unfold setV upd
  by_cases h : j = k
  · by_cases h' : x = e
    · simp [h, h']
    · simp [h, h']
  · simp [h]

theorem Calm.refl (F : Forest) (els : List Nat) (V : Nat → Nat → Nat) : Calm F els V V := ⟨fun _ _ _ _ => rfl, fun _ _ _ _ => rfl⟩

/-- elements of a circle are in no list -/
theorem Lists.not_loose {F : Forest} {els V fl} (r : Lists F els V fl) {j k p x e : Nat} (hx : x ∈ F.at' (lst k p)) (he : e ∈ F.at' (.loose j)) : x ≠ e := by
  intro h
  exact lst_ne_loose k p j (r.disj _ _ e (h ▸ hx) he)

/-- the stores of `add` -/
theorem does_add {P : Pool} {F : Forest} {els V fl} (s : Sees P els V fl) (h : Lists F els V fl) {p t k : Nat} (hp : F.Elem p) (ht : t ∈ F.at' (.loose k)) :
    Does P (.add p t) els (addX V (listField (fl t)) p t) := by
  have hpe := (h.mem p).1 hp
  have hte := (h.mem t).1 ⟨_, ht⟩
  have hpv : V 12 t ∈ F.at' (.loose k) := Circle.mem_pv (h.ring (.loose k)) ht
  have hhd := h.head p hpe (listField (fl t)) (listField_or _)
  have hm : V (listField (fl t)) p ≠ 0 → V (listField (fl t)) p ∈ F.at' (lst (listField (fl t)) p) := by
    intro h0
    rw [hhd] at h0 ⊢
    cases hl : F.at' (lst (listField (fl t)) p) with
    | nil => rw [hl] at h0; exact absurd rfl h0
    | cons a l => simp
  obtain ⟨a, b, c⟩ := addX_spec s hpe hte ((h.mem _).1 ⟨_, hpv⟩) fun h0 => ⟨(h.mem _).1 ⟨_, hm h0⟩, (h.mem _).1 ⟨_, Circle.mem_pv (h.ring _) (hm h0)⟩⟩
  exact ⟨a, b, c⟩

theorem calm_joinX {F : Forest} {els V fl} (h : Lists F els V fl) {a b k : Nat} (hb : V 12 b ∈ F.at' (.loose k)) (j : Nat) (hj : j < 4) : Calm F els V (setVs V ((joinX V a b).take j)) := by
  have hn : ∀ k' p, ∀ x ∈ F.at' (lst k' p), x ≠ V 12 b := fun k' p x hx => h.not_loose hx hb
  have hcase : j = 0 ∨ j = 1 ∨ j = 2 ∨ j = 3 := by omega
  rcases hcase with rfl | rfl | rfl | rfl
  · exact Calm.refl _ _ _
  · refine ⟨fun p _ k hk => ?_, fun k p x hx => ?_⟩
    · simp only [joinX, removeX1, List.take_succ_cons, List.take_zero, setVs_link, setVs_flag, setVs_nil]
      rw [setV_at, if_neg (by omega)]
    · simp only [joinX, removeX1, List.take_succ_cons, List.take_zero, setVs_link, setVs_flag, setVs_nil]
      rw [setV_at, if_neg (by omega)]
  · refine ⟨fun p _ k hk => ?_, fun k p x hx => ?_⟩
    · simp only [joinX, removeX1, List.take_succ_cons, List.take_zero, setVs_link, setVs_flag, setVs_nil]
      rw [setV_at, if_neg (by omega), setV_at, if_neg (by omega)]
    · simp only [joinX, removeX1, List.take_succ_cons, List.take_zero, setVs_link, setVs_flag, setVs_nil]
      rw [setV_at, if_neg (by omega), setV_at, if_neg (by omega)]
  · refine ⟨fun p _ k hk => ?_, fun k p x hx => ?_⟩
    · simp only [joinX, removeX1, List.take_succ_cons, List.take_zero, setVs_link, setVs_flag, setVs_nil]
      rw [setV_at, if_neg (by omega), setV_at, if_neg (by omega), setV_at, if_neg (by omega)]
    · simp only [joinX, removeX1, List.take_succ_cons, List.take_zero, setVs_link, setVs_flag, setVs_nil]
      have := hn k p x hx
      rw [setV_at, if_neg (fun h' => this h'.2), setV_at, if_neg (by omega), setV_at, if_neg (by omega)]

theorem calm_add {F G : Forest} {els V fl} (h : Lists F els V fl) {f p t k : Nat} (ht : t ∈ F.at' (.loose k)) (j : Nat) :
    Calm F els V (setVs V ((addX V f p t).take j)) ∨ Calm G els (setVs V (addX V f p t)) (setVs V ((addX V f p t).take j)) := by
  have hpv : V 12 t ∈ F.at' (.loose k) := Circle.mem_pv (h.ring (.loose k)) ht
  unfold addX
  split
  · by_cases h0 : j = 0
    · subst h0; exact Or.inl (Calm.refl _ _ _)
    · right; rw [List.take_of_length_le (by simp; omega)]; exact Calm.refl _ _ _
  · by_cases h0 : j < 4
    · exact Or.inl (calm_joinX h hpv j h0)
    · right; rw [List.take_of_length_le (by simp [joinX]; omega)]; exact Calm.refl _ _ _

/-- the stores of `join` -/
theorem does_join {P : Pool} {F : Forest} {els V fl} (s : Sees P els V fl) (h : Lists F els V fl) {a b k : Nat} {q : Place} (ha : a ∈ F.at' q) (hb : b ∈ F.at' (.loose k)) :
    Does P (.join a b) els (joinX V a b) := by
  obtain ⟨x, y, z⟩ := joinX_spec s ((h.mem a).1 ⟨_, ha⟩) ((h.mem b).1 ⟨_, hb⟩) ((h.mem _).1 ⟨_, Circle.mem_pv (h.ring _) ha⟩) ((h.mem _).1 ⟨_, Circle.mem_pv (h.ring _) hb⟩)
  exact ⟨x, y, z⟩

/-- what is known of an element in the list of `p` -/
theorem list_facts {P : Pool} {F : Forest} {els V fl} (s : Sees P els V fl) (h : Lists F els V fl) {p t : Nat} (ht : t ∈ F.at' (F.home p t)) :
    t ∈ els ∧ p ∈ els ∧ V 12 t ∈ els ∧ V 8 t ∈ els ∧ F.home p t = lst (listField (fl t)) p ∧ V (listField (fl t)) p ≠ 0 ∧ (V (listField (fl t)) p = t ↔ (F.at' (F.home p t)).head? = some t) ∧
      V 12 t ∈ F.at' (F.home p t) ∧ V 8 t ∈ F.at' (F.home p t) := by
  have hte := (h.mem t).1 ⟨_, ht⟩
  have hhome := h.home (p := p) hte
  have hpe : p ∈ els := h.own p (listField (fl t)) (by rw [← hhome]; exact List.ne_nil_of_mem ht)
  have hhd := h.head p hpe (listField (fl t)) (listField_or _)
  rw [← hhome] at hhd
  have hpv := Circle.mem_pv (h.ring (F.home p t)) ht
  have hnx := Circle.mem_nx (h.ring (F.home p t)) ht
  have hm : V (listField (fl t)) p ∈ F.at' (F.home p t) ∧ (V (listField (fl t)) p = t ↔ (F.at' (F.home p t)).head? = some t) := by
    rw [hhd]
    cases hl : F.at' (F.home p t) with
    | nil => rw [hl] at ht; cases ht
    | cons a l => simp
  refine ⟨hte, hpe, (h.mem _).1 ⟨_, hpv⟩, (h.mem _).1 ⟨_, hnx⟩, hhome, ?_, hm.2, hpv, hnx⟩
  have := s.lt ((h.mem _).1 ⟨_, hm.1⟩)
  omega

/-- an element linked to itself is alone -/
theorem self_single {nx pv : Nat → Nat} {t : Nat} {l : List Nat} (hr : Circle nx pv l) (hn : l.Nodup) (ht : t ∈ l) (hs : nx t = t) : l = [t] := by
  obtain ⟨x, y, hxy, hx, -⟩ := split_at ht
  rw [hxy] at hn hr ⊢
  rw [Circle_rot] at hr
  have hn' : (t :: (y ++ x)).Nodup := (List.perm_append_comm (l₁ := t :: y) (l₂ := x)).nodup_iff.2 hn
  replace hr : Circle nx pv (t :: (y ++ x)) := hr
  cases hyx : y ++ x with
  | nil => obtain ⟨rfl, rfl⟩ := List.append_eq_nil_iff.1 hyx; rfl
  | cons w m =>
    rw [hyx] at hr hn'
    have := Ring_next hr
    rw [hs] at this
    rw [this] at hn'
    simp at hn'

/-- the stores of `remove` -/
theorem does_remove {P : Pool} {F : Forest} {els V fl} (s : Sees P els V fl) (h : Lists F els V fl) {p t : Nat} (ht : t ∈ F.at' (F.home p t)) :
    Does P (.remove p t) els (removeX0 V (listField (fl t)) p t ++ removeX1 V t (fl t ||| 8)) := by
  obtain ⟨h1, h2, h3, h4, -, h6, -⟩ := list_facts s h ht
  obtain ⟨a, b, c⟩ := removeX_spec s h2 h1 h3 h4 h6
  exact ⟨a, b, c⟩

theorem removeX1_at (V : Nat → Nat → Nat) (t : Nat) (x : UInt8) (W : Nat → Nat → Nat) (j : Nat) : (∀ p, ∀ k, k = 16 ∨ k = 20 → setVs W ((removeX1 V t x).take j) k p = W k p) ∧
    (1 ≤ j → ∀ y, y ≠ t → setVs W ((removeX1 V t x).take j) 8 y = if y = V 12 t then V 8 t else W 8 y) := by
  have hcase : j = 0 ∨ j = 1 ∨ j = 2 ∨ j = 3 ∨ j = 4 ∨ 5 ≤ j := by omega
  have h8 : ∀ y v (W : Nat → Nat → Nat) e, y ≠ t → setV W 8 e v 8 y = if y = e then v else W 8 y := by
    intro y v W e _
    rw [setV_at]; simp
  rcases hcase with rfl | rfl | rfl | rfl | rfl | hj
  · exact ⟨fun _ _ _ => rfl, by omega⟩
  · refine ⟨fun p k hk => ?_, fun _ y hy => ?_⟩
    · simp only [joinX, removeX1, List.take_succ_cons, List.take_zero, setVs_link, setVs_flag, setVs_nil]
      rw [setV_at, if_neg (by omega)]
    · simp only [joinX, removeX1, List.take_succ_cons, List.take_zero, setVs_link, setVs_flag, setVs_nil]
      rw [h8 _ _ _ _ hy]
  · refine ⟨fun p k hk => ?_, fun _ y hy => ?_⟩
    · simp only [joinX, removeX1, List.take_succ_cons, List.take_zero, setVs_link, setVs_flag, setVs_nil]
      rw [setV_at, if_neg (by omega), setV_at, if_neg (by omega)]
    · simp only [joinX, removeX1, List.take_succ_cons, List.take_zero, setVs_link, setVs_flag, setVs_nil]
      rw [setV_at, if_neg (by omega), h8 _ _ _ _ hy]
  · refine ⟨fun p k hk => ?_, fun _ y hy => ?_⟩
    · simp only [joinX, removeX1, List.take_succ_cons, List.take_zero, setVs_link, setVs_flag, setVs_nil]
      rw [setV_at, if_neg (by omega), setV_at, if_neg (by omega), setV_at, if_neg (by omega)]
    · simp only [joinX, removeX1, List.take_succ_cons, List.take_zero, setVs_link, setVs_flag, setVs_nil]
      rw [setV_at, if_neg (by omega), setV_at, if_neg (by omega), h8 _ _ _ _ hy]
  · refine ⟨fun p k hk => ?_, fun _ y hy => ?_⟩
    · simp only [joinX, removeX1, List.take_succ_cons, List.take_zero, setVs_link, setVs_flag, setVs_nil]
      rw [setV_at, if_neg (by omega), setV_at, if_neg (by omega), setV_at, if_neg (by omega), setV_at, if_neg (by omega)]
    · simp only [joinX, removeX1, List.take_succ_cons, List.take_zero, setVs_link, setVs_flag, setVs_nil]
      rw [setV_at, if_neg (fun h' => hy h'.2), setV_at, if_neg (by omega), setV_at, if_neg (by omega), h8 _ _ _ _ hy]
  · rw [List.take_of_length_le (by simp [removeX1]; omega)]
    refine ⟨fun p k hk => ?_, fun _ y hy => ?_⟩
    · simp only [joinX, removeX1, List.take_succ_cons, List.take_zero, setVs_link, setVs_flag, setVs_nil]
      rw [setV_at, if_neg (by omega), setV_at, if_neg (by omega), setV_at, if_neg (by omega), setV_at, if_neg (by omega)]
    · simp only [joinX, removeX1, List.take_succ_cons, List.take_zero, setVs_link, setVs_flag, setVs_nil]
      rw [setV_at, if_neg (fun h' => hy h'.2), setV_at, if_neg (by omega), setV_at, if_neg (by omega), h8 _ _ _ _ hy]

/-- while an element is removed, once the list of `p` begins where it will and the element in front is linked to the one behind -/
theorem calm_remove1 {G : Forest} {els : List Nat} {V W : Nat → Nat → Nat} {t : Nat} {x : UInt8} (hg : ∀ k p, t ∉ G.at' (lst k p)) (j : Nat) (hj : 1 ≤ j) :
    Calm G els (setVs W (removeX1 V t x)) (setVs W ((removeX1 V t x).take j)) := by
  obtain ⟨a1, a2⟩ := removeX1_at V t x W j
  obtain ⟨b1, b2⟩ := removeX1_at V t x W 5
  rw [show (removeX1 V t x).take 5 = removeX1 V t x from rfl] at b1 b2
  refine ⟨fun p _ k hk => by rw [a1 p k hk, b1 p k hk], fun k p y hy => ?_⟩
  have hyt : y ≠ t := fun h => hg k p (h ▸ hy)
  rw [a2 hj y hyt, b2 (by omega) y hyt]

/-- the stores of `replace` -/
theorem does_replace {P : Pool} {F : Forest} {els V fl} (s : Sees P els V fl) (h : Lists F els V fl) {p t n k : Nat} (ht : t ∈ F.at' (F.home p t)) (hk : F.at' (.loose k) = [n]) :
    Does P (.replace p t n) els (replaceX0 V t n (fl t ||| 8) ++ replaceX1 V 16 p t n ++ replaceX1 V 20 p t n) ∧ n ≠ t ∧ n ∉ F.at' (F.home p t) := by
  obtain ⟨h1, h2, h3, h4, h5, -, -, -, h9⟩ := list_facts s h ht
  have hnm : n ∈ F.at' (.loose k) := by rw [hk]; simp
  have hnl : F.home p t ≠ .loose k := by rw [h5]; exact lst_ne_loose _ _ _
  have hnot : n ∉ F.at' (F.home p t) := fun h' => hnl (h.disj _ _ n h' hnm)
  have hns : V 8 n = n ∧ V 12 n = n := by
    have := h.ring (.loose k); rw [hk, Ring_single] at this; exact this
  have htn : t ≠ n := fun h' => hnot (h' ▸ ht)
  obtain ⟨a, b, c⟩ := replaceX_spec s h2 h1 ((h.mem n).1 ⟨_, hnm⟩) htn h3 h4 hns.1 hns.2 (fun h' => hnot (h' ▸ h9))
  exact ⟨⟨a, b, c⟩, Ne.symm htn, hnot⟩

theorem replaceX0_head (V : Nat → Nat → Nat) (t n : Nat) (x : UInt8) (j p k : Nat) (hk : k = 16 ∨ k = 20) : setVs V ((replaceX0 V t n x).take j) k p = V k p := by
  have hcase : j = 0 ∨ j = 1 ∨ j = 2 ∨ j = 3 ∨ j = 4 ∨ j = 5 ∨ j = 6 ∨ 7 ≤ j := by omega
  rcases hcase with rfl | rfl | rfl | rfl | rfl | rfl | rfl | hj
  · rfl
  · simp only [replaceX0, List.take_succ_cons, List.take_zero, setVs_link, setVs_flag, setVs_nil]
    rw [setV_at, if_neg (by omega)]
  · simp only [replaceX0, List.take_succ_cons, List.take_zero, setVs_link, setVs_flag, setVs_nil]
    rw [setV_at, if_neg (by omega), setV_at, if_neg (by omega)]
  · simp only [replaceX0, List.take_succ_cons, List.take_zero, setVs_link, setVs_flag, setVs_nil]
    rw [setV_at, if_neg (by omega), setV_at, if_neg (by omega), setV_at, if_neg (by omega)]
  · simp only [replaceX0, List.take_succ_cons, List.take_zero, setVs_link, setVs_flag, setVs_nil]
    rw [setV_at, if_neg (by omega), setV_at, if_neg (by omega), setV_at, if_neg (by omega), setV_at, if_neg (by omega)]
  · simp only [replaceX0, List.take_succ_cons, List.take_zero, setVs_link, setVs_flag, setVs_nil]
    rw [setV_at, if_neg (by omega), setV_at, if_neg (by omega), setV_at, if_neg (by omega), setV_at, if_neg (by omega)]
  · simp only [replaceX0, List.take_succ_cons, List.take_zero, setVs_link, setVs_flag, setVs_nil]
    rw [setV_at, if_neg (by omega), setV_at, if_neg (by omega), setV_at, if_neg (by omega), setV_at, if_neg (by omega), setV_at, if_neg (by omega)]
  · rw [List.take_of_length_le (by simp [replaceX0]; omega)]
    simp only [replaceX0, setVs_link, setVs_flag, setVs_nil]
    rw [setV_at, if_neg (by omega), setV_at, if_neg (by omega), setV_at, if_neg (by omega), setV_at, if_neg (by omega), setV_at, if_neg (by omega), setV_at, if_neg (by omega)]

theorem replaceX0_early (V : Nat → Nat → Nat) (t n : Nat) (x : UInt8) (j y : Nat) (hj : j < 4) (hy : y ≠ n) : setVs V ((replaceX0 V t n x).take j) 8 y = V 8 y := by
  have hcase : j = 0 ∨ j = 1 ∨ j = 2 ∨ j = 3 := by omega
  rcases hcase with rfl | rfl | rfl | rfl
  · rfl
  · simp only [replaceX0, List.take_succ_cons, List.take_zero, setVs_link, setVs_flag, setVs_nil]
    rw [setV_at, if_neg (fun h' => hy h'.2)]
  · simp only [replaceX0, List.take_succ_cons, List.take_zero, setVs_link, setVs_flag, setVs_nil]
    rw [setV_at, if_neg (by omega), setV_at, if_neg (fun h' => hy h'.2)]
  · simp only [replaceX0, List.take_succ_cons, List.take_zero, setVs_link, setVs_flag, setVs_nil]
    rw [setV_at, if_neg (by omega), setV_at, if_neg (by omega), setV_at, if_neg (fun h' => hy h'.2)]

/-- the links forwards once the element in front is linked to the new one -/
def swapN (V : Nat → Nat → Nat) (t n y : Nat) : Nat := if y = V 12 t then n else if y = n then V 8 t else V 8 y

theorem replaceX0_mid (V : Nat → Nat → Nat) (t n : Nat) (x : UInt8) (j y : Nat) (hj : 4 ≤ j) (hy : y ≠ t ∨ j = 4) : setVs V ((replaceX0 V t n x).take j) 8 y = swapN V t n y := by
  have hcase : j = 4 ∨ j = 5 ∨ j = 6 ∨ 7 ≤ j := by omega
  have key : setV (setV (setV (setV V 8 n (V 8 t)) 12 n (V 12 t)) 12 (V 8 t) n) 8 (V 12 t) n 8 y = swapN V t n y := by
    unfold swapN
    rw [setV_at, setV_at, if_neg (by omega : ¬ ((8 : Nat) = 12 ∧ y = V 8 t)), setV_at, if_neg (by omega : ¬ ((8 : Nat) = 12 ∧ y = n)), setV_at]
    simp
  rcases hcase with rfl | rfl | rfl | hj
  · simp only [replaceX0, List.take_succ_cons, List.take_zero, setVs_link, setVs_flag, setVs_nil]
    exact key
  · simp only [replaceX0, List.take_succ_cons, List.take_zero, setVs_link, setVs_flag, setVs_nil]
    exact key
  · simp only [replaceX0, List.take_succ_cons, List.take_zero, setVs_link, setVs_flag, setVs_nil]
    rw [setV_at, if_neg (by omega)]
    exact key
  · have hy : y ≠ t := by omega
    rw [List.take_of_length_le (by simp [replaceX0]; omega)]
    simp only [replaceX0, setVs_link, setVs_flag, setVs_nil]
    rw [setV_at, if_neg (fun h' => hy h'.2), setV_at, if_neg (by omega)]
    exact key

theorem calm_replace {F G : Forest} {els V fl} (h : Lists F els V fl) {t n k : Nat} {x : UInt8} (hk : F.at' (.loose k) = [n]) (hg : ∀ k p, t ∉ G.at' (lst k p)) (j : Nat) :
    Calm F els V (setVs V ((replaceX0 V t n x).take j)) ∨ Calm G els (setVs V (replaceX0 V t n x)) (setVs V ((replaceX0 V t n x).take j)) := by
  have hnm : n ∈ F.at' (.loose k) := by rw [hk]; simp
  have e7 : replaceX0 V t n x = (replaceX0 V t n x).take 7 := rfl
  by_cases hj : j < 4
  · exact Or.inl ⟨fun p _ k hk => replaceX0_head _ _ _ _ _ _ _ hk, fun k p y hy => replaceX0_early _ _ _ _ _ _ hj (h.not_loose hy hnm)⟩
  · right
    refine ⟨fun p _ k hk => ?_, fun k p y hy => ?_⟩
    · rw [replaceX0_head _ _ _ _ _ _ _ hk, e7, replaceX0_head _ _ _ _ _ _ _ hk]
    · have hyt : y ≠ t := fun h => hg k p (h ▸ hy)
      rw [replaceX0_mid _ _ _ _ _ _ (by omega) (Or.inl hyt), e7, replaceX0_mid _ _ _ _ _ _ (by omega) (Or.inl hyt)]

/-- an enumeration that never comes back to the first element -/
theorem forwards_never {P : Pool} {els V fl} (s : Sees P els V fl) {p t : Nat} (hp : p ∈ els) (hc : V 16 p = t) {S : List Nat} (hS : ∀ x ∈ S, x ∈ els ∧ V 8 x ∈ S) (ht : t ∉ S) :
    ∀ (fuel a : Nat), a ∈ els → V 8 a ∈ S → P.forwards p fuel a = .ub
  | 0, _, _, _ => rfl
  | fuel+1, a, ha, hn => by
    have ha0 := s.lt ha
    have hne : V 8 a ≠ t := fun h' => ht (h' ▸ hn)
    have ih := forwards_never s hp hc hS ht fuel (V 8 a) (hS _ hn).1 (hS _ hn).2
    unfold Pool.forwards Pool.nextChild
    rw [s.child hp, Out.ok_bind, if_neg (by omega), s.bwe hp, Out.ok_bind, s.nx ha, Out.ok_bind, hc, if_neg (by omega), s.bwe hp, Out.ok_bind]
    simp only [Out.pure_eq, Out.ok_bind, ih]
    rfl

end BX
