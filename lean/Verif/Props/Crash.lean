import Verif.Lemmas.CrashOps
import Verif.Lemmas.CrashStores
import Verif.Lemmas.CrashTable
import Verif.Props.Open
/-
C69: the process is killed while it changes a document.
-/
namespace BX
open XBT Spec

/-- the first element of a list of `p` is `t` -/
theorem head_home {F : Forest} {els V fl} (h : Lists F els V fl) {p t k : Nat} (hte : t ∈ els) (hp : p ∈ els) (h0 : t ≠ 0) (ht : t ∈ F.at' (F.home p t)) (hk : k = 16 ∨ k = 20) (hv : V k p = t) :
    (F.at' (F.home p t)).head? = some t := by
  have hh := h.head p hp k hk
  rw [hv] at hh
  cases hl : F.at' (lst k p) with
  | nil => rw [hl] at hh; exact absurd hh h0
  | cons a l =>
    rw [hl] at hh
    replace hh : t = a := hh
    have : F.home p t = lst k p := h.disj _ _ t ht (by rw [hl, hh]; simp)
    rw [this, hl, hh]; rfl

theorem step_does {P : Pool} {F G : Forest} {els V fl} (s : Sees P els V fl) (h : Lists F els V fl) {op : ListOp} (hs : Step F op G) : ∃ xs, Does P op els xs ∧
    (¬ op.first F → ∀ j, Calm F els V (setVs V (xs.take j)) ∨ Calm G els (setVs V xs) (setVs V (xs.take j))) := by
  obtain ⟨Q, V', fl', -, -, -, q4⟩ := step_spec s h hs
  cases hs with
  | add hp ht => exact ⟨_, does_add s h hp ht, fun _ j => calm_add h ht j⟩
  | join hjk ha hb _ =>
    refine ⟨_, does_join s h ha hb, fun _ j => ?_⟩
    by_cases h0 : j < 4
    · exact Or.inl (calm_joinX h (Circle.mem_pv (h.ring _) hb) j h0)
    · right; rw [List.take_of_length_le (by simp [joinX]; omega)]; exact Calm.refl _ _ _
  | splice ha hb _ =>
    refine ⟨_, does_join s h ha hb, fun _ j => ?_⟩
    by_cases h0 : j < 4
    · exact Or.inl (calm_joinX h (Circle.mem_pv (h.ring _) hb) j h0)
    · right; rw [List.take_of_length_le (by simp [joinX]; omega)]; exact Calm.refl _ _ _
  | @remove p t k ht hk =>
    obtain ⟨h1, h2, -, -, h5, -, h7, -⟩ := list_facts s h ht
    refine ⟨_, does_remove s h ht, fun hf j => ?_⟩
    have hg : ∀ k' p', t ∉ ((F.put (F.home p t) ((F.at' (F.home p t)).erase t)).put (.loose k) [t]).at' (lst k' p') :=
      fun k' p' hx => q4.not_loose hx (show t ∈ ((F.put (F.home p t) ((F.at' (F.home p t)).erase t)).put (.loose k) [t]).at' (.loose k) by simp [Forest.put]) rfl
    unfold removeX0
    by_cases hv : V (listField (fl t)) p = t
    · rw [if_pos hv]
      by_cases h0 : j = 0
      · subst h0; exact Or.inl (Calm.refl _ _ _)
      · right
        obtain ⟨i, rfl⟩ : ∃ i, j = i + 1 := ⟨j - 1, by omega⟩
        have hone : F.at' (F.home p t) = [t] := by
          have hhd := h7.1 hv
          cases hl : F.at' (F.home p t) with
          | nil => rw [hl] at hhd; cases hhd
          | cons a l =>
            rw [hl] at hhd
            cases l with
            | nil => cases hhd; rfl
            | cons b l => exact absurd ⟨by rw [hl]; exact hhd, by rw [hl]; simp⟩ hf
        have hself : V 8 t = t ∧ V 12 t = t := by
          have := h.ring (F.home p t); rw [hone, Ring_single] at this; exact this
        rw [List.singleton_append, List.take_succ_cons, setVs_link, setVs_link]
        by_cases h0' : i = 0
        · subst h0'
          rw [List.take_zero, setVs_nil]
          obtain ⟨b1, b2⟩ := removeX1_at V t (fl t ||| 8) (setV V (listField (fl t)) p (if V 8 t = t ∧ V 12 t = t then 0 else V 8 t)) 5
          rw [show (removeX1 V t (fl t ||| 8)).take 5 = removeX1 V t (fl t ||| 8) from rfl] at b1 b2
          refine ⟨fun p _ k hk => (b1 p k hk).symm, fun k' p' y hy => ?_⟩
          have hyt : y ≠ t := fun h => hg k' p' (h ▸ hy)
          rw [b2 (by omega) y hyt, if_neg (show ¬ y = V 12 t by rw [hself.2]; exact hyt)]
        · exact calm_remove1 hg i (by omega)
    · rw [if_neg hv, List.nil_append]
      by_cases h0 : j = 0
      · subst h0; exact Or.inl (Calm.refl _ _ _)
      · exact Or.inr (calm_remove1 hg j (by omega))
  | @replace p old new k ht h2 hk htag =>
    obtain ⟨h1, h3, -⟩ := list_facts s h ht
    refine ⟨_, (does_replace s h ht hk).1, fun hf j => ?_⟩
    have hg : ∀ k' p', old ∉ ((F.put (F.home p old) ((F.at' (F.home p old)).map (fun x => if x = old then new else x))).put (.loose k) [old]).at' (lst k' p') :=
      fun k' p' hx => q4.not_loose hx (show old ∈ ((F.put (F.home p old) ((F.at' (F.home p old)).map (fun x => if x = old then new else x))).put (.loose k) [old]).at' (.loose k) by simp [Forest.put]) rfl
    have h0 := (s.lt h1).1
    have hno : ∀ f, f = 16 ∨ f = 20 → replaceX1 V f p old new = [] := fun f hf' => by
      unfold replaceX1
      exact if_neg fun hv => hf ⟨head_home h h1 h3 (by omega) ht hf' hv, h2⟩
    rw [hno 16 (Or.inl rfl), hno 20 (Or.inr rfl), List.append_nil, List.append_nil]
    exact calm_replace h hk hg j
  | @cut e k he hk =>
    have hee := (h.mem e).1 he
    refine ⟨[.link 20 e 0], ⟨rfl, ?_, ?_⟩, fun _ j => ?_⟩
    · obtain ⟨Q, q1, -⟩ := s.set hee ptr20 (v := 0) (by omega) _ _ rfl rfl
      show (P.wr _ _ >>= fun Q => Q.stores []) = P.wr _ _
      rw [q1]; exact q1.symm ▸ rfl
    · intro x hx
      simp only [List.mem_cons, List.not_mem_nil, or_false] at hx
      subst hx; exact ⟨hee, ptr20, by omega⟩
    · by_cases h0 : j = 0
      · subst h0; exact Or.inl (Calm.refl _ _ _)
      · right; rw [List.take_of_length_le (by simp; omega)]; exact Calm.refl _ _ _
  | @tie e k he ha hb =>
    have hee := (h.mem e).1 he
    have hlt : (F.at' (.loose k)).headD 0 < 2147483648 := by
      cases hl : F.at' (.loose k) with
      | nil => decide
      | cons a l => exact (s.lt ((h.mem a).1 ⟨.loose k, by rw [hl]; simp⟩)).2
    refine ⟨[.link 20 e ((F.at' (.loose k)).headD 0)], ⟨rfl, ?_, ?_⟩, fun _ j => ?_⟩
    · obtain ⟨Q, q1, -⟩ := s.set hee ptr20 hlt _ _ rfl rfl
      show (P.wr _ _ >>= fun Q => Q.stores []) = P.wr _ _
      rw [q1]; exact q1.symm ▸ rfl
    · intro x hx
      simp only [List.mem_cons, List.not_mem_nil, or_false] at hx
      subst hx; exact ⟨hee, ptr20, hlt⟩
    · by_cases h0 : j = 0
      · subst h0; exact Or.inl (Calm.refl _ _ _)
      · right; rw [List.take_of_length_le (by simp; omega)]; exact Calm.refl _ _ _

/-- the stores of a call on elements are what the call does -/
theorem C69_stores {E : Env} {maxSize : Nat} (h1 : 0x4000 ≤ maxSize) (h2 : maxSize < 2147483648) {P : Pool} {D : Doc} (h : Sess E maxSize P D) {op : ListOp} {G : Forest} (hs : Step D.forest op G) :
    ∃ ss Q, op.stores P = .ok ss ∧ P.stores ss = .ok Q ∧ op.run P = .ok Q := by
  obtain ⟨⟨els, V, fl, k⟩, -⟩ := sess_both h1 h2 h
  obtain ⟨xs, d, -⟩ := step_does k.sees k.lists hs
  obtain ⟨Q, V', fl', q1, -⟩ := step_spec k.sees k.lists hs
  exact ⟨_, Q, d.eq, d.run.trans q1, q1⟩

/-- killed in a call on elements that does not remove or replace the first of several: the file opens and shows the document before the call or after it -/
theorem C69_calls_partial {E : Env} {maxSize : Nat} (h1 : 0x4000 ≤ maxSize) (h2 : maxSize < 2147483648) {P C : Pool} {D : Doc} (h : Sess E maxSize P D) {op : ListOp} {G : Forest}
    (hs : Step D.forest op G) (hf : ¬ op.first D.forest) {ss : List Store} (hss : op.stores P = .ok ss) (hk : P.KilledIn ss C) : OpensAs E C.file [D, { D with forest := G }] := by
  obtain ⟨⟨els, V, fl, k⟩, low⟩ := sess_both h1 h2 h
  obtain ⟨xs, d, hc⟩ := step_does k.sees k.lists hs
  have : ss = xs.map LStore.store := by have := d.eq; rw [hss] at this; simpa using this
  subst this
  refine crash_op k low hs d hk (by simp) (by simp) fun j => ?_
  rcases hc hf j with c | c
  · exact Or.inl c
  · exact Or.inr (Or.inl c)

/-! ### removing the first of several elements -/

/-- the list of `p` with its first element `t` at its end -/
def turned (F : Forest) (p t : Nat) : Forest := F.put (F.home p t) ((F.at' (F.home p t)).erase t ++ [t])

theorem ahead_turned {P : Pool} {F : Forest} {els V fl} (s : Sees P els V fl) (h : Lists F els V fl) {p t : Nat} (hf : (ListOp.remove p t).first F) :
    t ∈ F.at' (F.home p t) ∧ removeX0 V (listField (fl t)) p t = [.link (listField (fl t)) p (V 8 t)] ∧ Ahead (turned F p t) els (setV V (listField (fl t)) p (V 8 t)) := by
  obtain ⟨hf1, hf2⟩ := hf
  obtain ⟨b, l, hl⟩ : ∃ b l, F.at' (F.home p t) = t :: b :: l := by
    cases hl : F.at' (F.home p t) with
    | nil => rw [hl] at hf1; cases hf1
    | cons a m =>
      cases m with
      | nil => rw [hl] at hf2; simp at hf2
      | cons b l => rw [hl] at hf1; cases hf1; exact ⟨b, l, rfl⟩
  have ht : t ∈ F.at' (F.home p t) := by rw [hl]; simp
  obtain ⟨g1, g2, -, -, g5, -, g7, -⟩ := list_facts s h ht
  have hr := h.ring (F.home p t)
  have hnd := h.nodup (F.home p t)
  rw [hl] at hr hnd
  have hnx : V 8 t = b := Ring_next hr
  have htb : b ≠ t := by rintro rfl; simp at hnd
  have hq : (turned F p t).at' (F.home p t) = b :: l ++ [t] := by simp [turned, Forest.put, hl]
  have hq' : ∀ r, r ≠ F.home p t → (turned F p t).at' r = F.at' r := fun r hr => by simp [turned, Forest.put, hr]
  have hl8 := listField_or (fl t)
  refine ⟨ht, ?_, ⟨fun e => ?_, fun p' hp' k hk => ?_, fun r => ?_, fun k p' => ⟨V 12, ?_⟩⟩⟩
  · unfold removeX0
    rw [if_pos (g7.2 hf1), if_neg (by omega)]
  · rw [← h.mem]
    constructor
    · rintro ⟨r, hr⟩
      by_cases hrq : r = F.home p t
      · subst hrq
        rw [hq] at hr
        refine ⟨F.home p t, ?_⟩
        rw [hl]
        simp only [List.cons_append, List.mem_cons, List.mem_append, List.not_mem_nil, or_false] at hr ⊢
        rcases hr with hr | hr | hr <;> simp [hr]
      · rw [hq' r hrq] at hr; exact ⟨r, hr⟩
    · rintro ⟨r, hr⟩
      by_cases hrq : r = F.home p t
      · subst hrq
        rw [hl] at hr
        refine ⟨F.home p t, ?_⟩
        rw [hq]
        simp only [List.cons_append, List.mem_cons, List.mem_append, List.not_mem_nil, or_false] at hr ⊢
        rcases hr with hr | hr | hr <;> simp [hr]
      · exact ⟨r, by rw [hq' r hrq]; exact hr⟩
  · rw [setV_at]
    by_cases hkp : k = listField (fl t) ∧ p' = p
    · rw [if_pos hkp, hkp.1, hkp.2, ← g5, hq, hnx]; rfl
    · rw [if_neg hkp, hq' _ (by rw [g5]; exact fun e => hkp (lst_inj e hk hl8))]
      exact h.head p' hp' k hk
  · by_cases hrq : r = F.home p t
    · subst hrq
      rw [hq]
      exact (List.perm_append_comm (l₁ := [t]) (l₂ := b :: l)).nodup_iff.1 hnd
    · rw [hq' r hrq]; exact h.nodup r
  · have h8 : ∀ x, setV V (listField (fl t)) p (V 8 t) 8 x = V 8 x := fun x => by rw [setV_at, if_neg (by omega)]
    refine Ring_congr (fun x _ => h8 x) (fun _ _ => rfl) ?_
    by_cases hrq : lst k p' = F.home p t
    · rw [hrq, hq]
      exact (Circle_rot [t] (b :: l)).1 hr
    · rw [hq' _ hrq]; exact h.ring _

/-- killed while the first of several elements is removed: the file opens and shows the document before the call, after it, or with the element at the end of its list -/
theorem C69_remove_first {E : Env} {maxSize : Nat} (h1 : 0x4000 ≤ maxSize) (h2 : maxSize < 2147483648) {P C : Pool} {D : Doc} (h : Sess E maxSize P D) {p t : Nat} {G : Forest}
    (hs : Step D.forest (.remove p t) G) (hf : (ListOp.remove p t).first D.forest) {ss : List Store} (hss : P.removeStores p t = .ok ss) (hk : P.KilledIn ss C) :
    OpensAs E C.file [D, { D with forest := G }, { D with forest := turned D.forest p t }] := by
  obtain ⟨⟨els, V, fl, k⟩, low⟩ := sess_both h1 h2 h
  obtain ⟨ht, h0, ha⟩ := ahead_turned k.sees k.lists hf
  have d := does_remove k.sees k.lists ht
  rw [h0] at d
  have e := d.eq
  rw [show ListOp.stores P (.remove p t) = P.removeStores p t from rfl, hss, Out.ok.injEq] at e
  subst e
  obtain ⟨Q, V', fl', -, -, -, q4⟩ := step_spec k.sees k.lists hs
  refine crash_op k low hs d hk (by simp) (by simp) fun j => ?_
  have hg : ∀ k' p', t ∉ G.at' (lst k' p') := by
    cases hs with
    | @remove _ _ j ht hk =>
      exact fun k' p' hx => q4.not_loose hx (show t ∈ ((D.forest.put (D.forest.home p t) ((D.forest.at' (D.forest.home p t)).erase t)).put (.loose j) [t]).at' (.loose j) by simp [Forest.put]) rfl
  have hcase : j = 0 ∨ j = 1 ∨ 2 ≤ j := by omega
  rcases hcase with rfl | rfl | hj
  · exact Or.inl (Calm.refl _ _ _)
  · refine Or.inr (Or.inr ⟨_, List.mem_cons_of_mem _ (List.mem_cons_of_mem _ (List.mem_cons_self ..)), ?_⟩)
    rw [List.singleton_append, List.take_succ_cons, List.take_zero, setVs_link, setVs_nil]
    exact ha
  · obtain ⟨i, rfl⟩ : ∃ i, j = i + 1 := ⟨j - 1, by omega⟩
    right; left
    rw [List.singleton_append, List.take_succ_cons, setVs_link, setVs_link]
    exact calm_remove1 hg i (by omega)

/-- … and the last of these happens: neither the list before the call nor the one after it -/
theorem C69_remove_false {E : Env} {maxSize : Nat} (h1 : 0x4000 ≤ maxSize) (h2 : maxSize < 2147483648) {P : Pool} {D : Doc} (h : Sess E maxSize P D) {p t : Nat}
    (hf : (ListOp.remove p t).first D.forest) : ∃ ss C, P.removeStores p t = .ok ss ∧ P.KilledIn ss C ∧ OpensAs E C.file [{ D with forest := turned D.forest p t }] := by
  obtain ⟨⟨els, V, fl, k⟩, low⟩ := sess_both h1 h2 h
  obtain ⟨ht, h0, ha⟩ := ahead_turned k.sees k.lists hf
  have d := does_remove k.sees k.lists ht
  rw [h0] at d
  obtain ⟨C, fl', c1, c2, c3⟩ := run_links [.link (listField (fl t)) p (V 8 t)] k.sees (fun x hx => d.ok x (List.mem_append_left _ hx))
  exact ⟨_, C, d.eq, links_killed (j := 1) c1, (k.only c3).opensAs c2 low ha (by simp)⟩

/-! ### replacing the first of several elements -/

theorem Circle.pv_nx {nx pv : Nat → Nat} {l : List Nat} (h : Circle nx pv l) {x : Nat} (hx : x ∈ l) : pv (nx x) = x := by
  obtain ⟨a, b, rfl, -, -⟩ := split_at hx
  rw [Circle_rot] at h
  replace h : Circle nx pv (x :: (b ++ a)) := h
  cases hl : b ++ a with
  | nil => rw [hl, Ring_single] at h; rw [h.1, h.2]
  | cons c m =>
    rw [hl] at h
    simp only [Circle, List.cons_append, Links] at h
    rw [h.1.1, h.1.2]

theorem Circle.nx_pv {nx pv : Nat → Nat} {l : List Nat} (h : Circle nx pv l) {x : Nat} (hx : x ∈ l) : nx (pv x) = x := by
  obtain ⟨a, b, rfl, -, -⟩ := split_at hx
  rw [Circle_rot] at h
  replace h : Circle nx pv (x :: (b ++ a)) := h
  obtain ⟨i, hi⟩ := Ring_last h
  exact ((Circle_iff hi).1 h).2.1

/-- killed while the first of several children is replaced: at one point the file opens and a loop over the children never ends -/
theorem C69_replace_false {E : Env} {maxSize : Nat} (h1 : 0x4000 ≤ maxSize) (h2 : maxSize < 2147483648) {P : Pool} {D : Doc} (h : Sess E maxSize P D) {p old new : Nat} {G : Forest}
    (hs : Step D.forest (.replace p old new) G) (hf : (ListOp.replace p old new).first D.forest) (htag : D.forest.tag old = true) :
    ∃ ss C, P.replaceStores p old new = .ok ss ∧ P.KilledIn ss C ∧ ∀ n, ∃ g, openFile E false n C.file = .ok (some g) ∧ ∀ fuel, g.pool.forwards p fuel 0 = .ub := by
  obtain ⟨⟨els, V, fl, k⟩, low⟩ := sess_both h1 h2 h
  cases hs with
  | @replace _ _ _ j ht hl2 hj _ =>
    obtain ⟨g1, g2, g3, g4, g5, g6, g7, g8, g9⟩ := list_facts k.sees k.lists ht
    obtain ⟨d, hno, hnl⟩ := does_replace k.sees k.lists ht hj
    have hhome : D.forest.home p old = .kids p := by unfold Forest.home; rw [if_pos htag]
    have hfl : listField (fl old) = 16 := by
      rw [hhome] at g5
      have := listField_or (fl old)
      rcases this with h' | h'
      · exact h'
      · rw [h'] at g5; simp [lst] at g5
    have h16 : V 16 p = old := by rw [← hfl]; exact g7.2 hf.1
    have hne : new ∈ els := (k.lists.mem new).1 ⟨.loose j, by rw [hj]; simp⟩
    obtain ⟨C, fl', c1, c2, c3⟩ := run_links ((replaceX0 V old new (fl old ||| 8)).take 4) k.sees (fun x hx => d.ok x (List.mem_append_left _ (List.mem_append_left _ (List.mem_of_mem_take hx))))
    refine ⟨_, C, d.eq, links_killed (j := 4) ?_, fun n => ?_⟩
    · rw [List.append_assoc, List.take_append_of_le_length (by simp [replaceX0])]; exact c1
    obtain ⟨o1, -, o3⟩ := (k.only c3).opens (E := E) c2 low n
    refine ⟨_, o1, fun fuel => ?_⟩
    cases fuel with
    | zero => rfl
    | succ fuel =>
      have hh : setVs V ((replaceX0 V old new (fl old ||| 8)).take 4) 16 p = old := by rw [replaceX0_head _ _ _ _ _ _ _ (Or.inl rfl), h16]
      have hm : ∀ y, setVs V ((replaceX0 V old new (fl old ||| 8)).take 4) 8 y = swapN V old new y := fun y => replaceX0_mid _ _ _ _ _ _ (by omega) (Or.inr rfl)
      have hring := k.lists.ring (D.forest.home p old)
      have hlast : V 12 old ≠ old := fun e => by
        have h8 := hring.nx_pv ht
        rw [e] at h8
        have := self_single hring (k.lists.nodup _) ht h8
        rw [this] at hl2; simp at hl2
      have h8old : V 8 old ≠ old := fun e => by
        have := self_single hring (k.lists.nodup _) ht e
        rw [this] at hl2; simp at hl2
      have hS : ∀ x, x ∈ new :: (D.forest.at' (D.forest.home p old)).filter (· ≠ old) ↔ x = new ∨ (x ∈ D.forest.at' (D.forest.home p old) ∧ x ≠ old) := fun x => by simp
      have key : ∀ x ∈ new :: (D.forest.at' (D.forest.home p old)).filter (· ≠ old), swapN V old new x ∈ new :: (D.forest.at' (D.forest.home p old)).filter (· ≠ old) := by
        intro x hx
        rw [hS] at hx ⊢
        unfold swapN
        by_cases hx1 : x = V 12 old
        · rw [if_pos hx1]; exact Or.inl rfl
        · rw [if_neg hx1]
          by_cases hx2 : x = new
          · rw [if_pos hx2]; exact Or.inr ⟨g9, h8old⟩
          · rw [if_neg hx2]
            rcases hx with hx | ⟨hx, -⟩
            · exact absurd hx hx2
            · refine Or.inr ⟨hring.mem_nx hx, fun e => hx1 ?_⟩
              have := hring.pv_nx hx
              rw [e] at this; exact this.symm
      have hstart : swapN V old new old ∈ new :: (D.forest.at' (D.forest.home p old)).filter (· ≠ old) := by
        unfold swapN
        rw [if_neg (Ne.symm hlast), if_neg (Ne.symm hno), hS]
        exact Or.inr ⟨g9, h8old⟩
      have hub := forwards_never o3 g2 hh (S := new :: (D.forest.at' (D.forest.home p old)).filter (· ≠ old)) (fun x hx => ⟨?_, by rw [hm]; exact key x hx⟩)
        (fun hx => by rw [hS] at hx; rcases hx with hx | hx; exact hno hx.symm; exact hx.2 rfl) fuel old g1 (by rw [hm]; exact hstart)
      · have hlt := k.sees.lt g1
        unfold Pool.forwards Pool.nextChild
        rw [o3.child g2, Out.ok_bind, if_pos rfl, hh, if_neg (by omega), o3.bwe g2, Out.ok_bind]
        simp only [Out.pure_eq, Out.ok_bind, hub]
        rfl
      · rw [hS] at hx
        rcases hx with rfl | hx
        · exact hne
        · exact (k.lists.mem x).1 ⟨_, hx.1⟩

/-! ### making an element -/

/-- the stores of making an element for which there is room are what making it does -/
theorem C69_make_stores {E : Env} {maxSize : Nat} (h1 : 0x4000 ≤ maxSize) (h2 : maxSize < 2147483648) {P Q : Pool} {D : Doc} (h : Sess E maxSize P D) {id : Int} {t : XBT} {size off : Nat} {b : Bool} {bs : List UInt8}
    (h0 : 0 ≤ size2 t size) (hr : P.Room t (24 + (size2 t size).toNat)) :
    (∃ o, P.make E id t size (tagFlag b) off bs = .ok (Q, some o)) ↔ P.stores (P.makeStores id t size (tagFlag b) off bs) = .ok Q := by
  obtain ⟨⟨els, V, fl, k⟩, -⟩ := sess_both h1 h2 h
  have hl := k.sees.ok.lim
  have hp := k.sees.ok.page
  have hm := k.sees.ok.map
  have hs := k.sees.small
  rw [make_stores k.sees.ok E h0 hr (by omega)]
  cases P.stores (P.makeStores id t size (tagFlag b) off bs) with
  | ok R => simp
  | fail => simp
  | ub => simp

/-- killed while an element is made for which there is room: the file opens and shows the document before the call, and the history can go on with it -/
theorem C69_make {E : Env} {maxSize : Nat} (h1 : 0x4000 ≤ maxSize) (h2 : maxSize < 2147483648) {P C : Pool} {D : Doc} (h : Sess E maxSize P D) {id : Int} {t : XBT} {size off : Nat} {b : Bool} {bs : List UInt8}
    (hr : P.Room t (24 + (size2 t size).toNat)) (hk : P.KilledIn (P.makeStores id t size (tagFlag b) off bs) C) :
    OpensAs E C.file [D] ∧ ∀ n, ∃ g, openFile E false n C.file = .ok (some g) ∧ Sess E maxSize g.pool D := by
  obtain ⟨⟨els, V, fl, k⟩, low⟩ := sess_both h1 h2 h
  have kc := k.got (make_killed k.sees.ok hr hk)
  refine ⟨kc.holds.opensAs kc.sees low (kc.lists.ahead (fun _ _ _ _ => rfl) fun _ _ _ _ => rfl) (by simp), fun n => ?_⟩
  obtain ⟨o1, -⟩ := kc.opened low E n
  exact ⟨_, o1, Sess.killed h hr hk o1⟩

/-! ### storing a value -/

theorem slice_getD (m : Mem) (a n i : Nat) (h : i < n) : (slice m a n).getD i 0 = m (a + i) := by
  rw [List.getD_eq_getElem?_getD]
  simp [slice, h]

theorem memPut_slice {m m' : Mem} {a n : Nat} (h : ∀ i, i < a ∨ a + n ≤ i → m' i = m i) : memPut m a (slice m' a n) = m' := by
  funext i
  unfold memPut
  have hl : (slice m' a n).length = n := by simp [slice]
  rw [hl]
  by_cases hi : a ≤ i ∧ i < a + n
  · rw [if_pos hi, slice_getD _ _ _ _ (by omega), show a + (i - a) = i by omega]
  · rw [if_neg hi, h i (by omega)]

/-- killed while a value is stored: only this value differs, each of its bytes is the old or the new one, the file opens and the history can go on -/
theorem C69_value {E : Env} {maxSize : Nat} (h1 : 0x4000 ≤ maxSize) (h2 : maxSize < 2147483648) {P C : Pool} {D : Doc} (h : Sess E maxSize P D) {e : Nat} {bs : List UInt8} (he : D.forest.Elem e)
    (hl : bs.length ≤ aa (D.val e).length) (hk : P.KilledIn [.bytes ((e + 24 : Nat) : Int) bs] C) :
    ∃ bs', bs'.length = bs.length ∧ (∀ i, i < bs.length → bs'.getD i 0 = bs.getD i 0 ∨ (i < (D.val e).length → bs'.getD i 0 = (D.val e).getD i 0)) ∧ Sess E maxSize C (D.store e bs') ∧ OpensAs E C.file [D.store e bs'] := by
  obtain ⟨⟨els, V, fl, k⟩, low⟩ := sess_both h1 h2 h
  have hee := (k.lists.mem e).1 he
  have hel := k.elem e hee
  have hhi := hel.hi
  have hal := k.sees.ok.le
  have hlim := k.sees.ok.lim
  have hbound : e + 24 + bs.length ≤ P.fileSize := by
    by_cases h0 : bs.length = 0
    · omega
    · have : e + 24 + bs.length - 1 < P.alloc := k.lt (k := .elem e) ⟨he, by omega, by omega⟩
      omega
  have key : ∃ m : Mem, C = { P with mem := m } ∧ ∀ i, m i = P.mem i ∨ (e + 24 ≤ i ∧ i < e + 24 + bs.length ∧ m i = bs.getD (i - (e + 24)) 0) := by
    obtain ⟨done, rest, heq, hc⟩ := hk
    cases done with
    | nil =>
      rcases hc with hc | ⟨a, cs, rest', Q, m, hr, hq, rfl, hm⟩
      · cases hc
        exact ⟨P.mem, rfl, fun _ => Or.inl rfl⟩
      · cases hq
        rw [List.nil_append, hr] at heq
        simp only [List.cons.injEq, Store.bytes.injEq] at heq
        obtain ⟨⟨ha, rfl⟩, -⟩ := heq
        have ha : e + 24 = a := by omega
        subst ha
        exact ⟨m, rfl, fun i => by
          rcases hm i with h' | ⟨h1, h2, -, h3⟩
          · exact Or.inl h'
          · exact Or.inr ⟨h1, h2, h3⟩⟩
    | cons d done =>
      simp only [List.cons_append, List.cons.injEq] at heq
      obtain ⟨rfl, heq⟩ := heq
      obtain ⟨rfl, rfl⟩ := List.append_eq_nil_iff.1 heq.symm
      rcases hc with hc | ⟨a, cs, rest', Q, m, hr, -⟩
      · have hw : P.wr ((e + 24 : Nat) : Int) bs = .ok C := by
          obtain ⟨S, hS1, hS2⟩ := Out.bind_eq_ok (show (P.wr ((e + 24 : Nat) : Int) bs >>= fun Q => Q.stores []) = .ok C from hc)
          cases hS2; exact hS1
        rw [Pool.wr_eq hbound _ rfl] at hw
        cases hw
        refine ⟨_, rfl, fun i => ?_⟩
        unfold memPut
        by_cases hi : e + 24 ≤ i ∧ i < e + 24 + bs.length
        · rw [if_pos hi]; exact Or.inr ⟨hi.1, hi.2, rfl⟩
        · rw [if_neg hi]; exact Or.inl rfl
      · cases hr
  obtain ⟨m, rfl, hm⟩ := key
  have hsl : (slice m (e + 24) bs.length).length = bs.length := by simp [slice]
  have hw : P.wr (e + 24) (slice m (e + 24) bs.length) = .ok { P with mem := m } := by
    rw [Pool.wr_eq (a := e + 24) (by rw [hsl]; exact hbound) _ (by omega), memPut_slice]
    intro i hi
    rcases hm i with h' | h'
    · exact h'
    · omega
  have hl' : (slice m (e + 24) bs.length).length ≤ aa (D.val e).length := by rw [hsl]; exact hl
  have hst := Sess.stored h he hl' hw
  refine ⟨_, hsl, fun i hi => ?_, hst, ?_⟩
  · rw [slice_getD _ _ _ _ hi]
    rcases hm (e + 24 + i) with h' | ⟨-, -, h'⟩
    · right
      intro hiv
      rw [h']
      have hv := hel.val
      unfold Has at hv
      rw [← slice_getD P.mem (e + 24) (D.val e).length i hiv, hv]
    · left
      rw [h']
      congr 1; omega
  · have ks := k.store he hl' hw
    exact ks.holds.opensAs ks.sees low (ks.lists.ahead (fun _ _ _ _ => rfl) fun _ _ _ _ => rfl) (by simp)

/-- killed while an aligned word of a value is stored: the file opens and shows the document before or after -/
theorem C69_word {E : Env} {maxSize : Nat} (h1 : 0x4000 ≤ maxSize) (h2 : maxSize < 2147483648) {P C : Pool} {D : Doc} (h : Sess E maxSize P D) {e : Nat} {v : Int} (he : D.forest.Elem e)
    (hl : 4 ≤ aa (D.val e).length) (hk : P.KilledIn [.word (e + 24) v] C) : OpensAs E C.file [D, D.store e (le32 v)] := by
  obtain ⟨⟨els, V, fl, k⟩, low⟩ := sess_both h1 h2 h
  obtain ⟨done, rest, heq, hc⟩ := hk
  cases done with
  | nil =>
    rcases hc with hc | ⟨a, cs, rest', Q, m, hr, -⟩
    · cases hc
      exact k.holds.opensAs k.sees low (k.lists.ahead (fun _ _ _ _ => rfl) fun _ _ _ _ => rfl) (by simp)
    · rw [List.nil_append, hr] at heq; simp at heq
  | cons d done =>
    simp only [List.cons_append, List.cons.injEq] at heq
    obtain ⟨rfl, heq⟩ := heq
    obtain ⟨rfl, rfl⟩ := List.append_eq_nil_iff.1 heq.symm
    rcases hc with hc | ⟨a, cs, rest', Q, m, hr, -⟩
    · obtain ⟨S, hS1, hS2⟩ := Out.bind_eq_ok (show (P.wr (e + 24) (le32 v) >>= fun Q => Q.stores []) = .ok C from hc)
      cases hS2
      have ks := k.store he (by rw [le32_length]; exact hl) hS1
      exact ks.holds.opensAs ks.sees low (ks.lists.ahead (fun _ _ _ _ => rfl) fun _ _ _ _ => rfl) (by simp)
    · cases hr

/-! ### a growing file -/

theorem openFile_refused {E : Env} {f : Img} {R : Pool} (hm : f.mem = R.file.mem) (h1 : R.fileSize < 2147483648) (h2 : R.mmapSize < 2147483648) (h3 : R.limit < 2147483648) (h4 : 92 ≤ f.size)
    (h5 : f.size ≤ R.mmapSize) (h6 : R.fileSize ≠ f.size ∨ R.limit ≠ R.fileSize) (n : Nat) : openFile E false n f = .ok none := by
  obtain ⟨-, -, f3, f4, -, -, f7, -⟩ := file_fields R
  rw [← hm] at f3 f4 f7
  have e3 := field_ok f3 (isI32_of_lt h1)
  have e4 := field_ok f4 (isI32_of_lt h2)
  have e7 := field_ok f7 (isI32_of_lt h3)
  unfold openFile checkExisting
  rw [if_neg (by omega), e4, if_neg (by omega)]
  simp only [Bool.false_eq_true, if_false]
  rw [if_pos]
  · rfl
  · rw [e3, e7]
    omega

/-- killed while the file grows: it cannot be opened any more -/
theorem C69_grow_false {E : Env} {maxSize : Nat} (h1 : 0x4000 ≤ maxSize) (h2 : maxSize < 2147483648) {P Q : Pool} {D : Doc} (h : Sess E maxSize P D) {size : Nat} {r : Bool}
    (hg : P.makeSpace E size = .ok (Q, r)) (hn : Q.fileSize ≠ P.fileSize) : ∀ f ∈ P.growFiles Q.fileSize, ∀ n, openFile E false n f = .ok none := by
  obtain ⟨⟨els, V, fl, k⟩, low⟩ := sess_both h1 h2 h
  have hlim := k.sees.ok.lim
  have hpage := k.sees.ok.page
  have hmap := k.sees.ok.map
  have hsm := k.sees.small
  have hhead := k.sees.ok.head
  have hle := k.sees.ok.le
  obtain ⟨hq1, hq2⟩ : P.fileSize < Q.fileSize ∧ Q.fileSize ≤ P.mmapSize := by
    unfold Pool.makeSpace at hg
    split at hg
    · cases hg
    · simp only at hg
      split at hg
      · cases hg; exact absurd rfl hn
      · split at hg
        · cases hg; exact absurd rfl hn
        · split at hg
          · cases hg; exact absurd rfl hn
          · cases hg; constructor <;> simp only <;> omega
  unfold poolHeader at hhead
  intro f hf n
  unfold Pool.growFiles at hf
  generalize hm : (fun i => if P.fileSize ≤ i ∧ i < Q.fileSize then 0 else P.mem i : Mem) = m at hf
  simp only [List.mem_cons, List.not_mem_nil, or_false] at hf
  have hB : P.mmapSize < 2147483648 := hsm
  have hC : P.limit < 2147483648 := by omega
  have hD : 92 ≤ Q.fileSize := by omega
  rcases hf with rfl | rfl
  · exact openFile_refused (f := ⟨memPut m 0 P.header, Q.fileSize⟩) (R := { P with mem := m }) rfl (show P.fileSize < 2147483648 by omega) hB hC hD hq2 (Or.inl (Ne.symm hn)) n
  · exact openFile_refused (R := { P with mem := m, fileSize := Q.fileSize }) rfl (show Q.fileSize < 2147483648 by omega) hB hC hD hq2 (Or.inr (show P.limit ≠ Q.fileSize by omega)) n

/-! ### a document -/

/-- for examples -/
def ssOf : Out (List Store) → List Store
  | .ok l => l
  | _ => []

theorem ssOf_eq {r : Out (List Store)} (h : (match r with | .ok _ => true | _ => false) = true) : r = .ok (ssOf r) := by
  match r, h with
  | .ok _, _ => rfl

/-- an element 92 with the children 116 and 140, and a detached element 164 with a value -/
def row1 : Pool := poolOf ((Pool.empty 0x10000).make demoEnv 0 NULL 0 (tagFlag true) (sizeField NULL 0).length [])
def row2 : Pool := poolOf (row1.make demoEnv 1 NULL 0 (tagFlag true) (sizeField NULL 0).length [])
def row3 : Pool := poolOf (row2.make demoEnv 2 NULL 0 (tagFlag true) (sizeField NULL 0).length [])
def row4 : Pool := poolOf (row3.make demoEnv 3 INT32 0 (tagFlag true) (sizeField INT32 0).length (le32 7))
def row5 : Pool := poolOf' (row4.add ((92 : Nat) : Int) (some ((116 : Nat) : Int)))
def row6 : Pool := poolOf' (row5.add ((92 : Nat) : Int) (some ((140 : Nat) : Int)))

theorem row_sess : ∃ D, Sess demoEnv 0x10000 row6 D ∧ D.forest.at' (.kids 92) = [116, 140] ∧ D.forest.at' (.loose 0) = [92] ∧ D.forest.at' (.loose 3) = [164] ∧ (∀ k, 4 ≤ k → D.forest.at' (.loose k) = []) ∧
    (∀ e, e = 92 ∨ e = 116 ∨ e = 140 ∨ e = 164 → D.forest.tag e = true ∧ D.forest.Elem e) ∧ D.val 164 = le32 7 := by
  have i16 : ∀ i, 0 ≤ i ∧ i < 9 → Is16 i := by unfold Is16; omega
  have r1 : (Pool.empty 0x10000).make demoEnv 0 NULL 0 (tagFlag true) (sizeField NULL 0).length [] = .ok (row1, some 92) := poolOf_eq (by decide +kernel)
  have r2 : row1.make demoEnv 1 NULL 0 (tagFlag true) (sizeField NULL 0).length [] = .ok (row2, some 116) := poolOf_eq (by decide +kernel)
  have r3 : row2.make demoEnv 2 NULL 0 (tagFlag true) (sizeField NULL 0).length [] = .ok (row3, some 140) := poolOf_eq (by decide +kernel)
  have r4 : row3.make demoEnv 3 INT32 0 (tagFlag true) (sizeField INT32 0).length (le32 7) = .ok (row4, some 164) := poolOf_eq (by decide +kernel)
  have r5 : row4.add ((92 : Nat) : Int) (some ((116 : Nat) : Int)) = .ok row5 := poolOf'_eq (by decide +kernel)
  have r6 : row5.add ((92 : Nat) : Int) (some ((140 : Nat) : Int)) = .ok row6 := poolOf'_eq (by decide +kernel)
  have s1 := Sess.made (E := demoEnv) (maxSize := 0x10000) (k := 0) Sess.start (i16 0 (by decide)) (by decide) r1 rfl
  have s2 := Sess.made (k := 1) s1 (i16 1 (by decide)) (by decide) r2 rfl
  have s3 := Sess.made (k := 2) s2 (i16 2 (by decide)) (by decide) r3 rfl
  have s4 := Sess.made (k := 3) s3 (i16 3 (by decide)) (by decide) r4 rfl
  have s5 := Sess.step s4 (Step.add (p := 92) (t := 116) (k := 1) ⟨.loose 0, by decide⟩ (by decide)) r5
  have s6 := Sess.step s5 (Step.add (p := 92) (t := 140) (k := 2) ⟨.loose 0, by decide⟩ (by decide)) r6
  refine ⟨_, s6, by decide +kernel, by decide +kernel, by decide +kernel, fun k hk => ?_, ?_, by decide +kernel⟩
  · have : ∀ j, j < 4 → k ≠ j := fun j hj => by omega
    simp [Forest.put, Forest.home, Doc.plus, Doc.empty, Forest.none, this]
  · rintro e (rfl | rfl | rfl | rfl)
    · exact ⟨by decide +kernel, .loose 0, by decide +kernel⟩
    · exact ⟨by decide +kernel, .kids 92, by decide +kernel⟩
    · exact ⟨by decide +kernel, .kids 92, by decide +kernel⟩
    · exact ⟨by decide +kernel, .loose 3, by decide +kernel⟩

/-- the stores of adding 164 to 92 -/
def rowAdd : List Store := ssOf (row6.addStores ((92 : Nat) : Int) ((164 : Nat) : Int))
/-- the process is killed behind the first `j` of them and the file is opened again -/
def rowTorn (j : Nat) : Pool := poolOf' (row6.stores (rowAdd.take j))
def rowOpen (j : Nat) : Plug := plugOf (openFile demoEnv false 0 (rowTorn j).file)
/-- another element is made and added -/
def rowNext (j : Nat) : Pool := poolOf ((rowOpen j).pool.make demoEnv 4 NULL 0 (tagFlag true) (sizeField NULL 0).length [])
def rowLast (j : Nat) : Pool := poolOf' ((rowNext j).add ((92 : Nat) : Int) (some ((192 : Nat) : Int)))

theorem row_killed (j : Nat) (h : row6.stores (rowAdd.take j) = .ok (rowTorn j)) : row6.KilledIn rowAdd (rowTorn j) :=
  ⟨rowAdd.take j, rowAdd.drop j, (List.take_append_drop _ _).symm, Or.inl h⟩

/-- what is shown is not all that matters: the process is killed while a child is added; the file opens and shows the document before the call, but a child that is
added then is not among the children -/
theorem C69_later_false : ∃ (P C R Q : Pool) (D : Doc) (G : Forest) (ss : List Store) (g : Plug), Sess demoEnv 0x10000 P D ∧ Step D.forest (.add 92 164) G ∧
    P.addStores ((92 : Nat) : Int) ((164 : Nat) : Int) = .ok ss ∧ P.KilledIn ss C ∧ openFile demoEnv false 0 C.file = .ok (some g) ∧ Shows g.pool D ∧
    g.pool.make demoEnv 4 NULL 0 (tagFlag true) 0 [] = .ok (R, some 192) ∧ R.add ((92 : Nat) : Int) (some ((192 : Nat) : Int)) = .ok Q ∧ Q.forwards 92 10 0 = .ok [116, 140] := by
  obtain ⟨D, h, hk, h0, hl, -, he, -⟩ := row_sess
  have r1 : row6.addStores ((92 : Nat) : Int) ((164 : Nat) : Int) = .ok rowAdd := ssOf_eq (by decide +kernel)
  have r2 : row6.stores (rowAdd.take 2) = .ok (rowTorn 2) := poolOf'_eq (by decide +kernel)
  have r3 : openFile demoEnv false 0 (rowTorn 2).file = .ok (some (rowOpen 2)) := plugOf_eq (by decide +kernel)
  have r4 : (rowOpen 2).pool.make demoEnv 4 NULL 0 (tagFlag true) 0 [] = .ok (rowNext 2, some 192) := poolOf_eq (by decide +kernel)
  have r5 : (rowNext 2).add ((92 : Nat) : Int) (some ((192 : Nat) : Int)) = .ok (rowLast 2) := poolOf'_eq (by decide +kernel)
  have hs := Step.add (he 92 (by simp)).2 (show 164 ∈ D.forest.at' (.loose 3) by rw [hl]; simp)
  have hkl := row_killed 2 r2
  obtain ⟨g, g1, D', g2, g3⟩ := C69_calls_partial (E := demoEnv) (by decide) (by decide) h hs (by simp [ListOp.first]) r1 hkl 0
  rw [r3] at g1
  cases g1
  refine ⟨_, _, _, _, D, _, _, _, h, hs, r1, hkl, r3, ?_, r4, r5, by decide +kernel⟩
  simp only [List.mem_cons, List.not_mem_nil, or_false] at g2
  rcases g2 with rfl | rfl
  · exact g3
  · exfalso
    have hkk : ((D.forest.put (D.forest.home 92 164) (D.forest.at' (D.forest.home 92 164) ++ fromElem 164 (D.forest.at' (.loose 3)))).put (.loose 3) []).at' (.kids 92) = [116, 140, 164] := by
      simp [Forest.put, Forest.home, (he 164 (by simp)).1, hk, hl, fromElem]
    have := g3.kids 92 ⟨.loose 0, by simp [Forest.put, Forest.home, (he 164 (by simp)).1, h0]⟩ 10 (by rw [hkk]; decide)
    rw [hkk] at this
    revert this
    decide +kernel

/-- … and there the children and the children backwards are not the same -/
theorem C69_backwards_false : ∃ (P C : Pool) (D : Doc) (G : Forest) (ss : List Store) (g : Plug), Sess demoEnv 0x10000 P D ∧ Step D.forest (.add 92 164) G ∧
    P.addStores ((92 : Nat) : Int) ((164 : Nat) : Int) = .ok ss ∧ P.KilledIn ss C ∧ openFile demoEnv false 0 C.file = .ok (some g) ∧
    g.pool.forwards 92 10 0 = .ok [116, 140] ∧ g.pool.backwards 92 10 0 = .ok [164, 140, 116] := by
  obtain ⟨D, h, hk, h0, hl, -, he, -⟩ := row_sess
  have r1 : row6.addStores ((92 : Nat) : Int) ((164 : Nat) : Int) = .ok rowAdd := ssOf_eq (by decide +kernel)
  have r2 : row6.stores (rowAdd.take 2) = .ok (rowTorn 2) := poolOf'_eq (by decide +kernel)
  have r3 : openFile demoEnv false 0 (rowTorn 2).file = .ok (some (rowOpen 2)) := plugOf_eq (by decide +kernel)
  have hs := Step.add (he 92 (by simp)).2 (show 164 ∈ D.forest.at' (.loose 3) by rw [hl]; simp)
  have r6 : (rowOpen 2).pool.forwards 92 10 0 = .ok [116, 140] ∧ (rowOpen 2).pool.backwards 92 10 0 = .ok [164, 140, 116] := by decide +kernel
  exact ⟨_, _, D, _, _, _, h, hs, r1, row_killed 2 r2, r3, r6⟩

/-- the hypotheses of `C69_stores` and `C69_calls_partial` are met: see `C69_later_false`; and by removing the second child -/
example : ∃ ss C, row6.removeStores ((92 : Nat) : Int) ((140 : Nat) : Int) = .ok ss ∧ row6.KilledIn ss C ∧ ∃ D G, OpensAs demoEnv C.file [D, { D with forest := G }] ∧ D.forest.at' (.kids 92) = [116, 140] ∧ G.at' (.kids 92) = [116] := by
  obtain ⟨D, h, hk, h0, hl, hn, he, -⟩ := row_sess
  have hm : D.forest.home 92 140 = .kids 92 := by simp [Forest.home, (he 140 (by simp)).1]
  have hs := Step.remove (p := 92) (show 140 ∈ D.forest.at' (D.forest.home 92 140) by rw [hm, hk]; simp) (hn 4 (by decide))
  obtain ⟨ss, Q, s1, s2, -⟩ := C69_stores (by decide) (by decide) h hs
  have hkl : row6.KilledIn ss row6 := ⟨[], ss, rfl, Or.inl rfl⟩
  exact ⟨ss, row6, s1, hkl, D, _, C69_calls_partial (by decide) (by decide) h hs (by simp [ListOp.first, hm, hk]) s1 hkl, hk, by simp [Forest.put, hm, hk]⟩

/-- the hypotheses of `C69_remove_first` and `C69_remove_false` are met: removing 116, at one point the children are 140 and 116 -/
example : ∃ ss C, row6.removeStores ((92 : Nat) : Int) ((116 : Nat) : Int) = .ok ss ∧ row6.KilledIn ss C ∧ ∀ n, ∃ g, openFile demoEnv false n C.file = .ok (some g) ∧ g.pool.forwards 92 10 0 = .ok [140, 116] := by
  obtain ⟨D, h, hk, h0, hl, hn, he, -⟩ := row_sess
  have hm : D.forest.home 92 116 = .kids 92 := by simp [Forest.home, (he 116 (by simp)).1]
  obtain ⟨ss, C, s1, s2, s3⟩ := C69_remove_false (E := demoEnv) (by decide) (by decide) h (p := 92) (t := 116) (by simp [ListOp.first, hm, hk])
  refine ⟨ss, C, s1, s2, fun n => ?_⟩
  obtain ⟨g, g1, D', g2, g3⟩ := s3 n
  simp only [List.mem_cons, List.not_mem_nil, or_false] at g2
  subst g2
  have ht : (turned D.forest 92 116).at' (.kids 92) = [140, 116] := by simp [turned, Forest.put, hm, hk]
  have := g3.kids 92 ⟨.loose 0, by simp [turned, Forest.put, hm, h0]⟩ 10 (by simp only [ht]; decide)
  simp only [ht] at this
  exact ⟨g, g1, this⟩

/-- the hypotheses of `C69_replace_false` are met: replacing 116 by 164 -/
example : ∃ ss C, row6.replaceStores ((92 : Nat) : Int) ((116 : Nat) : Int) ((164 : Nat) : Int) = .ok ss ∧ row6.KilledIn ss C ∧ ∀ n, ∃ g, openFile demoEnv false n C.file = .ok (some g) ∧ ∀ fuel, g.pool.forwards 92 fuel 0 = .ub := by
  obtain ⟨D, h, hk, h0, hl, hn, he, -⟩ := row_sess
  have hm : D.forest.home 92 116 = .kids 92 := by simp [Forest.home, (he 116 (by simp)).1]
  have hs := Step.replace (p := 92) (show 116 ∈ D.forest.at' (D.forest.home 92 116) by rw [hm, hk]; simp) (by rw [hm, hk]; decide) hl (by rw [(he 116 (by simp)).1, (he 164 (by simp)).1])
  exact C69_replace_false (by decide) (by decide) h hs (by simp [ListOp.first, hm, hk]) (he 116 (by simp)).1

/-- the hypotheses of `C69_make` and `C69_make_stores` are met: a text is made, the process is killed in the middle of it -/
example : ∃ C Q D, row6.KilledIn (row6.makeStores 5 STRING 4 (tagFlag true) 0 (b8 "abc" ++ [0])) C ∧ C.alloc ≠ row6.alloc ∧ (∃ o, row6.make demoEnv 5 STRING 4 (tagFlag true) 0 (b8 "abc" ++ [0]) = .ok (Q, some o)) ∧
    OpensAs demoEnv C.file [D] := by
  obtain ⟨D, h, -⟩ := row_sess
  have hr : row6.Room STRING (24 + (size2 STRING 4).toNat) := by unfold Pool.Room; decide +kernel
  have hq : row6.stores (row6.makeStores 5 STRING 4 (tagFlag true) 0 (b8 "abc" ++ [0])) = .ok (poolOf' (row6.stores (row6.makeStores 5 STRING 4 (tagFlag true) 0 (b8 "abc" ++ [0])))) := poolOf'_eq (by decide +kernel)
  have hc : row6.stores ((row6.makeStores 5 STRING 4 (tagFlag true) 0 (b8 "abc" ++ [0])).take 3) = .ok (poolOf' (row6.stores ((row6.makeStores 5 STRING 4 (tagFlag true) 0 (b8 "abc" ++ [0])).take 3))) := poolOf'_eq (by decide +kernel)
  have hk : row6.KilledIn (row6.makeStores 5 STRING 4 (tagFlag true) 0 (b8 "abc" ++ [0])) _ := ⟨_, _, (List.take_append_drop 3 _).symm, Or.inl hc⟩
  exact ⟨_, _, D, hk, by decide +kernel, (C69_make_stores (by decide) (by decide) h (by decide) hr).2 hq, (C69_make (by decide) (by decide) h hr hk).1⟩

/-- the hypotheses of `C69_value` and `C69_word` are met by the value of 164 -/
example : ∃ C D, row6.KilledIn [.word ((164 : Nat) + 24) 8] C ∧ OpensAs demoEnv C.file [D, D.store 164 (le32 8)] ∧ row6.KilledIn [.bytes ((164 + 24 : Nat) : Int) [1, 2]] row6 ∧ ∃ bs', bs'.length = 2 ∧ OpensAs demoEnv row6.file [D.store 164 bs'] := by
  obtain ⟨D, h, hk, h0, hl, hn, he, hv⟩ := row_sess
  have hc : row6.stores [.word ((164 : Nat) + 24) 8] = .ok (poolOf' (row6.stores [.word ((164 : Nat) + 24) 8])) := poolOf'_eq (by decide +kernel)
  have hkl : row6.KilledIn [.word ((164 : Nat) + 24) 8] _ := ⟨_, [], (List.append_nil _).symm, Or.inl hc⟩
  have hkl' : row6.KilledIn [.bytes ((164 + 24 : Nat) : Int) [1, 2]] row6 := ⟨[], _, rfl, Or.inl rfl⟩
  obtain ⟨bs', b1, -, -, b2⟩ := C69_value (by decide) (by decide) h (he 164 (by simp)).2 (by rw [hv]; decide) hkl'
  exact ⟨_, D, hkl, C69_word (by decide) (by decide) h (he 164 (by simp)).2 (by rw [hv]; decide) hkl, hkl', bs', b1, b2⟩

/-- the hypotheses of `C69_grow_false` are met -/
example : ∃ Q r, row6.makeSpace demoEnv 0x5000 = .ok (Q, r) ∧ Q.fileSize ≠ row6.fileSize ∧ ∀ f ∈ row6.growFiles Q.fileSize, ∀ n, openFile demoEnv false n f = .ok none := by
  obtain ⟨D, h, -⟩ := row_sess
  have r : row6.makeSpace demoEnv 0x5000 = .ok (poolOfB (row6.makeSpace demoEnv 0x5000), true) := poolOfB_eq (by decide +kernel)
  have hn : (poolOfB (row6.makeSpace demoEnv 0x5000)).fileSize ≠ row6.fileSize := by decide +kernel
  exact ⟨_, _, r, hn, C69_grow_false (by decide) (by decide) h r hn⟩

/-! ### registering a symbol -/

/-- the stores of registering the first symbol of a document -/
def regStores : List Store := (Pool.empty 0x10000).registerStores true (b8 "AB") STRING
def regTorn (j : Nat) : Pool := poolOf' ((Pool.empty 0x10000).stores (regStores.take j))
def regOpen (j : Nat) : Pool := (plugOf (openFile demoEnv false 0 (regTorn j).file)).pool

/-- killed while the first symbol is registered: after one point no tag can be registered any more; after another the symbol that was to be registered has an empty name, and
registering it again gives another identification. (The stores are those of the call: together they give the same pool.) -/
theorem C69_register_false : (∃ Q R, (Pool.empty 0x10000).register true (b8 "AB") STRING = .ok (Q, 0) ∧ (Pool.empty 0x10000).stores regStores = .ok R ∧ Q.tags = R.tags ∧ Q.alloc = R.alloc ∧ slice Q.mem 0 128 = slice R.mem 0 128) ∧
    (∃ C g Q, (Pool.empty 0x10000).KilledIn regStores C ∧ openFile demoEnv false 0 C.file = .ok (some g) ∧ g.pool.register true (b8 "AB") STRING = .ok (Q, -1)) ∧
    ∃ C g Q R, (Pool.empty 0x10000).KilledIn regStores C ∧ openFile demoEnv false 0 C.file = .ok (some g) ∧ g.pool.register true (b8 "AB") STRING = .ok (Q, 1) ∧ Q.allRegistered demoEnv = .ok (R, true) ∧
      R.symName true 0 = .ok (some []) := by
  have hk : ∀ j, (Pool.empty 0x10000).stores (regStores.take j) = .ok (regTorn j) → (Pool.empty 0x10000).KilledIn regStores (regTorn j) := fun j h => ⟨_, _, (List.take_append_drop j _).symm, Or.inl h⟩
  refine ⟨⟨poolOfReg ((Pool.empty 0x10000).register true (b8 "AB") STRING), poolOf' ((Pool.empty 0x10000).stores regStores), poolOfReg_eq (by decide +kernel), poolOf'_eq (by decide +kernel), by decide +kernel⟩,
    ⟨regTorn 2, plugOf (openFile demoEnv false 0 (regTorn 2).file), _, hk 2 (poolOf'_eq (by decide +kernel)), plugOf_eq (by decide +kernel), poolOfReg_eq (by decide +kernel)⟩,
    ⟨regTorn 4, plugOf (openFile demoEnv false 0 (regTorn 4).file), _, _, hk 4 (poolOf'_eq (by decide +kernel)), plugOf_eq (by decide +kernel), poolOfReg_eq (by decide +kernel), poolOfB_eq (by decide +kernel), by decide +kernel⟩⟩

/-! ### making the index of the symbols -/

theorem table_opens {E : Env} {P C : Pool} {D : Doc} {els V fl} (k : Keeps P D els V fl) (low : D.root < 2147483648) {b : Bool} {ss : List Store} (hi : (P.tab b).index = 0) (hne : D.syms b ≠ [])
    (hr : P.alloc + 4 * (D.syms b).length ≤ P.limit) (hs : P.tableStores b = .ok ss) (hk : P.KilledIn ss C) : OpensAs E C.file [D, { D with ready := fun c => D.ready c || decide (c = b) }] := by
  obtain ⟨Q, xs, T, t1, t2, t3, t4⟩ := table_stores k.sees.ok k.sees.small (k.tabs b) hi hne hr
  rw [t2] at hs
  cases hs
  rcases killed_snoc (by simp) hk with hk | hk
  · have kc := k.got (killed_got k.sees.ok t4 hk)
    exact kc.holds.opensAs kc.sees low (kc.lists.ahead (fun _ _ _ _ => rfl) fun _ _ _ _ => rfl) (by simp)
  · rw [t3] at hk
    cases hk
    have kc := k.index t1 hi
    simp only [Bool.and_true] at kc
    exact kc.holds.opensAs kc.sees low (kc.lists.ahead (fun _ _ _ _ => rfl) fun _ _ _ _ => rfl) (by simp)

/-- the stores of making the index of symbols that have none, for which there is room, are what making it does -/
theorem C69_table_stores {E : Env} {maxSize : Nat} (h1 : 0x4000 ≤ maxSize) (h2 : maxSize < 2147483648) {P Q : Pool} {D : Doc} (h : Sess E maxSize P D) {b : Bool} (hi : (P.tab b).index = 0) (hne : D.syms b ≠ [])
    (hr : P.alloc + 4 * (D.syms b).length ≤ P.limit) : P.ensureTable b = .ok (Q, true) ↔ ∃ ss, P.tableStores b = .ok ss ∧ P.stores ss = .ok Q := by
  obtain ⟨⟨els, V, fl, k⟩, -⟩ := sess_both h1 h2 h
  obtain ⟨R, xs, T, t1, t2, t3, t4⟩ := table_stores k.sees.ok k.sees.small (k.tabs b) hi hne hr
  unfold Pool.ensureTable
  rw [if_neg (by simpa using hi), t1, t2]
  constructor
  · intro e; cases e; exact ⟨_, rfl, t3⟩
  · rintro ⟨ss, e1, e2⟩
    cases e1
    rw [t3] at e2; cases e2; rfl

/-- killed while the index of the tags, or of the attributes, is made: the file opens and shows the document, without the index or with it -/
theorem C69_table {E : Env} {maxSize : Nat} (h1 : 0x4000 ≤ maxSize) (h2 : maxSize < 2147483648) {P C : Pool} {D : Doc} (h : Sess E maxSize P D) {b : Bool} {ss : List Store} (hi : (P.tab b).index = 0) (hne : D.syms b ≠ [])
    (hr : P.alloc + 4 * (D.syms b).length ≤ P.limit) (hs : P.tableStores b = .ok ss) (hk : P.KilledIn ss C) : OpensAs E C.file [D, { D with ready := fun c => D.ready c || decide (c = b) }] := by
  obtain ⟨⟨els, V, fl, k⟩, low⟩ := sess_both h1 h2 h
  exact table_opens k low hi hne hr hs hk

/-- the same while the index of the attributes is made behind that of the tags, as `allRegistered` does -/
theorem C69_table_second {E : Env} {maxSize : Nat} (h1 : 0x4000 ≤ maxSize) (h2 : maxSize < 2147483648) {P R C : Pool} {D : Doc} (h : Sess E maxSize P D) {ss : List Store} (ht : P.ensureTable true = .ok (R, true))
    (hi : (R.tab false).index = 0) (hne : D.syms false ≠ []) (hr : R.alloc + 4 * (D.syms false).length ≤ R.limit) (hs : R.tableStores false = .ok ss) (hk : R.KilledIn ss C) :
    OpensAs E C.file [{ D with ready := fun c => D.ready c || c }, { D with ready := fun _ => true }] := by
  obtain ⟨⟨els, V, fl, k⟩, low⟩ := sess_both h1 h2 h
  have := table_opens (E := E) (k.ensure ht) low hi hne hr hs hk
  have e1 : (fun c => D.ready c || (decide (c = true) && true)) = fun c => D.ready c || c := by funext c; cases c <;> simp
  have e2 : (fun c => (D.ready c || c) || decide (c = false)) = fun _ => true := by funext c; cases c <;> simp
  rw [e1] at this
  simp only at this
  rw [e2] at this
  exact this

/-- a tag and an attribute are registered -/
def tabReg : Pool := poolOfReg (lone1.register false (b8 "n") STRING)
def tabOne : Pool := poolOfB (tabReg.ensureTable true)
def tabStores (P : Pool) (b : Bool) : List Store := ssOf (P.tableStores b)

/-- the hypotheses of `C69_table_stores`, `C69_table` and `C69_table_second` are met: the process is killed with the memory taken and the first offset of the index stored -/
example : ∃ D, Sess demoEnv 0x8000 tabReg D ∧ D.syms true = [⟨b8 "a", INT32⟩] ∧ D.syms false = [⟨b8 "n", STRING⟩] ∧
    (∃ C, tabReg.KilledIn (tabStores tabReg true) C ∧ C.alloc ≠ tabReg.alloc ∧ OpensAs demoEnv C.file [D, { D with ready := fun c => D.ready c || decide (c = true) }]) ∧
    ∃ C, tabOne.KilledIn (tabStores tabOne false) C ∧ C.alloc ≠ tabOne.alloc ∧ OpensAs demoEnv C.file [{ D with ready := fun c => D.ready c || c }, { D with ready := fun _ => true }] := by
  have r1 : (Pool.empty 0x8000).register true (b8 "a") INT32 = .ok (lone1, 0) := poolOfReg_eq (by decide +kernel)
  have r2 : lone1.register false (b8 "n") STRING = .ok (tabReg, 0) := poolOfReg_eq (by decide +kernel)
  have s1 := Sess.registered (E := demoEnv) (maxSize := 0x8000) Sess.start (by decide) (by decide) (Or.inl (by decide)) r1 (by decide)
  have s2 := Sess.registered s1 (by decide) (by decide) (Or.inl (by decide)) r2 (by decide)
  have e1 : tabReg.tableStores true = .ok (tabStores tabReg true) := ssOf_eq (by decide +kernel)
  have e2 : tabOne.tableStores false = .ok (tabStores tabOne false) := ssOf_eq (by decide +kernel)
  have t : tabReg.ensureTable true = .ok (tabOne, true) := poolOfB_eq (by decide +kernel)
  have k1 : tabReg.stores ((tabStores tabReg true).take 3) = .ok (poolOf' (tabReg.stores ((tabStores tabReg true).take 3))) := poolOf'_eq (by decide +kernel)
  have k2 : tabOne.stores ((tabStores tabOne false).take 3) = .ok (poolOf' (tabOne.stores ((tabStores tabOne false).take 3))) := poolOf'_eq (by decide +kernel)
  have kk1 : tabReg.KilledIn (tabStores tabReg true) _ := ⟨_, _, (List.take_append_drop 3 _).symm, Or.inl k1⟩
  have kk2 : tabOne.KilledIn (tabStores tabOne false) _ := ⟨_, _, (List.take_append_drop 3 _).symm, Or.inl k2⟩
  refine ⟨_, s2, by decide, by decide, ⟨_, kk1, by decide +kernel, ?_⟩, ⟨_, kk2, by decide +kernel, ?_⟩⟩
  · exact C69_table (by decide) (by decide) s2 (by decide +kernel) (by decide) (by decide +kernel) e1 kk1
  · exact C69_table_second (by decide) (by decide) s2 t (by decide +kernel) (by decide) (by decide +kernel) e2 kk2

end BX
