import Verif.Lemmas.Log
import Verif.Lemmas.TreeRoom
import Verif.Spec.LogRoom
/-
The room that a batch of elements needs.
-/
namespace BX
open XBT Spec

mutual
theorem tree_apart {D : Doc} {els V fl} (hl : Lists D.forest els V fl) {U : ETree} (hU : D.Below U) : ∀ S : ETree, D.Below S → (∀ p ∈ treeEls S, U.top ∉ D.forest.at' (.kids p)) → S.top ∉ treeEls U →
    ∀ x ∈ treeEls S, x ∉ treeEls U
  | .node s ks, h, he, ht, x, hx => by
    unfold Doc.Below at h
    unfold treeEls at hx he
    have ht : s ∉ treeEls U := ht
    rcases List.mem_cons.1 hx with rfl | hx
    · exact ht
    · refine trees_apart hl hU ks h.2 (fun p hp => he p (List.mem_cons_of_mem _ hp)) (fun c hc hcu => ?_) x hx
      rw [← h.1] at hc
      rcases below_parent U c hU hcu with h1 | ⟨p, h1, h2⟩
      · exact he s (by simp) (h1 ▸ hc)
      · have := hl.disj _ _ _ hc h2
        simp only [Place.kids.injEq] at this
        exact ht (this ▸ h1)
theorem trees_apart {D : Doc} {els V fl} (hl : Lists D.forest els V fl) {U : ETree} (hU : D.Below U) : ∀ l : List ETree, D.BelowAll l → (∀ p ∈ treesEls l, U.top ∉ D.forest.at' (.kids p)) →
    (∀ c ∈ tops l, c ∉ treeEls U) → ∀ x ∈ treesEls l, x ∉ treeEls U
  | [], _, _, _, x, hx => by unfold treesEls at hx; cases hx
  | S :: l, h, he, ht, x, hx => by
    unfold Doc.BelowAll at h
    unfold treesEls at hx he
    rcases List.mem_append.1 hx with hx | hx
    · exact tree_apart hl hU S h.1 (fun p hp => he p (List.mem_append.2 (Or.inl hp))) (ht _ (by simp [tops])) x hx
    · exact trees_apart hl hU l h.2 (fun p hp => he p (List.mem_append.2 (Or.inr hp))) (fun c hc => ht c (by simp only [tops, List.map_cons] at hc ⊢; exact List.mem_cons_of_mem _ hc)) x hx
end

/-- trees none of which is below another one -/
theorem apart_nodup {D : Doc} {els V fl} (hl : Lists D.forest els V fl) : ∀ l : List ETree, D.BelowAll l → (tops l).Nodup → (∀ c ∈ tops l, ∀ p ∈ treesEls l, c ∉ D.forest.at' (.kids p)) → (treesEls l).Nodup
  | [], _, _, _ => by unfold treesEls; exact List.nodup_nil
  | T :: l, h, hn, he => by
    unfold Doc.BelowAll at h
    unfold treesEls at he ⊢
    simp only [tops, List.map_cons] at hn he
    obtain ⟨n1, n2⟩ := List.nodup_cons.1 hn
    refine List.nodup_append.2 ⟨tree_nodup hl T h.1, apart_nodup hl l h.2 n2 (fun c hc p hp => he c (List.mem_cons_of_mem _ hc) p (List.mem_append.2 (Or.inr hp))), ?_⟩
    rintro x hx y hy rfl
    refine trees_apart hl h.1 l h.2 (fun p hp => he _ (by simp) p (List.mem_append.2 (Or.inr hp))) (fun c hc hcu => ?_) x hy hx
    rcases below_parent T c h.1 hcu with h1 | ⟨p, h1, h2⟩
    · rw [h1] at hc; exact n1 hc
    · exact he c (List.mem_cons_of_mem _ hc) p (List.mem_append.2 (Or.inl h1)) h2

theorem belows_get {D : Doc} : ∀ {l : List ETree} {x : Nat}, D.BelowAll l → x ∈ treesEls l → ∃ T ∈ l, D.Below T ∧ x ∈ treeEls T
  | [], x, _, hx => by unfold treesEls at hx; cases hx
  | T :: l, x, h, hx => by
    unfold Doc.BelowAll at h
    unfold treesEls at hx
    rcases List.mem_append.1 hx with hx | hx
    · exact ⟨T, by simp, h.1, hx⟩
    · obtain ⟨S, h1, h2⟩ := belows_get h.2 hx
      exact ⟨S, List.mem_cons_of_mem _ h1, h2⟩

theorem belowAll_mem {D : Doc} {T : ETree} : ∀ {l : List ETree}, D.BelowAll l → T ∈ l → D.Below T
  | S :: l, h, hT => by
    unfold Doc.BelowAll at h
    rcases List.mem_cons.1 hT with rfl | hT
    · exact h.1
    · exact belowAll_mem h.2 hT

theorem treeEls_node (e : Nat) (ks : List ETree) : treeEls (.node e ks) = e :: treesEls ks := by rw [treeEls]
theorem treesEls_cons (T : ETree) (l : List ETree) : treesEls (T :: l) = treeEls T ++ treesEls l := by rw [treesEls]

theorem tree_le {T : ETree} : ∀ {l : List ETree}, T ∈ l → (treeEls T).length ≤ (treesEls l).length
  | S :: l, h => by
    unfold treesEls
    rw [List.length_append]
    rcases List.mem_cons.1 h with rfl | h
    · omega
    · have := tree_le h; omega

/-- the trees of a batch have no element in common -/
theorem batch_nodup {P : Pool} {D : Doc} {els V fl} (k : Keeps P D els V fl) {q : Place} {Ts : List ETree} (hq : ∀ c ∈ tops Ts, c ∈ D.forest.at' q) (hn : (tops Ts).Nodup) (hb : D.BelowAll Ts) : (treesEls Ts).Nodup := by
  refine apart_nodup k.lists Ts hb hn ?_
  intro c hc p hp hcp
  obtain ⟨T, t1, t2, t3⟩ := belows_get hb hp
  have e := k.lists.disj _ _ _ (hq c hc) hcp
  subst e
  have ht : T.top ∈ D.forest.at' (.kids p) := hq _ (List.mem_map.2 ⟨T, t1, rfl⟩)
  obtain ⟨S, s1, s2, s3⟩ := below_sub T p t2 t3
  obtain ⟨s, ks⟩ := S
  have s1 : s = p := s1
  subst s1
  unfold Doc.Below at s2
  rw [s2.1] at ht
  obtain ⟨U, u1, u2⟩ := List.mem_map.1 ht
  have hU : D.Below U := belowAll_mem s2.2 u1
  have := below_unique U T hU t2 u2
  subst this
  have h1 := tree_le u1
  rw [treeEls_node, List.length_cons] at s3
  omega

/-- the elements of trees with their attributes, and the names, are in the file of the document -/
theorem trees_fit {P : Pool} {D : Doc} {els V fl} (k : Keeps P D els V fl) (Ts : List ETree) (hb : D.BelowAll Ts) (he : ∀ x ∈ tops Ts, x ∈ els) (hq : D.EveryAll D.storedElem D.storedAttr Ts) (hn : (treesEls Ts).Nodup) :
    room D (treesEls Ts) + room D (attrsOf D (treesEls Ts)) ≤ P.fileSize := by
  have hm := trees_mem k Ts hb he hq
  have ha := attrsOf_nodup k.lists hn
  have hap : (treesEls Ts ++ attrsOf D (treesEls Ts)).Nodup := by
    refine List.nodup_append.2 ⟨hn, ha, ?_⟩
    rintro x hx y hy rfl
    obtain ⟨p, -, hp⟩ := List.mem_flatMap.1 hy
    have h1 := k.lists.attrs _ _ hp
    rw [(hm x hx).2] at h1
    cases h1
  have hel : ∀ x ∈ treesEls Ts ++ attrsOf D (treesEls Ts), x ∈ els := by
    intro x hx
    rcases List.mem_append.1 hx with hx | hx
    · exact (hm x hx).1
    · obtain ⟨p, -, hp⟩ := List.mem_flatMap.1 hx
      exact (k.lists.mem x).1 ⟨_, hp⟩
  have h := parts_fit k ((treesEls Ts ++ attrsOf D (treesEls Ts)).map Part.elem) ?_ ?_
  · have hsz := k.sees.size
    have e1 : ∀ l : List Nat, ((l.map Part.elem).map (partLen D)).sum = room D l := by
      intro l; unfold room; rw [List.map_map]; rfl
    rw [e1, room_append] at h
    omega
  · exact List.Pairwise.map _ (fun a b h h' => h (by cases h'; rfl)) hap
  · intro p hp i h1 h2
    obtain ⟨x, hx, rfl⟩ := List.mem_map.1 hp
    exact ⟨(k.lists.mem x).2 (hel x hx), h1, by simp only [partAt, partLen] at h2; omega⟩

theorem append_total {c : Ctx} (hflt : ∀ s, (c.flt s).length = 4) (m0 : Mem) (f : Img) (e : Elem) (hd : TextDoc c.flt c.ptype e) (hok : TreeOk c.ptype e) (hl : 16 + need e ≤ c.limit) :
    ∃ g, append c m0 f e = .ok g ∧ g.size ≤ f.size + need e + 3 := by
  have h1 := aa_lt (f.size % 16)
  have h2 : aa (f.size % 16) ≤ 16 := by
    have := aa_mod (f.size % 16); omega
  obtain ⟨m', wp', x, g1, g2⟩ := writeNode_total hflt e m0 (aa (f.size % 16)) hd hok (by omega)
  unfold append
  simp only
  rw [g1]
  refine ⟨_, rfl, ?_⟩
  simp only
  omega

/-- what the elements of the trees and their attributes take in the document -/
def roomAll (D : Doc) (l : List ETree) : Nat := room D (treesEls l) + room D (attrsOf D (treesEls l))

theorem roomAll_cons (D : Doc) (T : ETree) (l : List ETree) : roomAll D (T :: l) = room D (treeEls T) + room D (attrsOf D (treeEls T)) + roomAll D l := by
  unfold roomAll
  rw [treesEls_cons, room_append, show attrsOf D (treeEls T ++ treesEls l) = attrsOf D (treeEls T) ++ attrsOf D (treesEls l) by unfold attrsOf; exact List.flatMap_append, room_append]
  omega

theorem write_total {D : Doc} {els V} {c : Ctx} {bufs : Nat → Mem} {deep : Nat} {a : Nat} (hflt : ∀ s, (c.flt s).length = 4) (hr : ∀ b, D.ready b = true) (hae : a ∈ els) : ∀ (Ts : List ETree) (T : ETree) (n : Nat) (P : Pool) (fl : Nat → UInt8) (f : Img),
    Keeps P D els V fl → Links (V 8) (V 12) (tops (T :: Ts) ++ [a]) → (∀ x ∈ tops (T :: Ts), x ∈ els) → a ∉ tops Ts → D.BelowAll (T :: Ts) → D.EveryAll D.storedElem D.storedAttr (T :: Ts) →
    D.SmallAll P.fileSize (T :: Ts) → D.stepsAll (T :: Ts) ≤ deep → Ts.length < n → roomAll D (T :: Ts) ≤ P.fileSize → 16 + 2 * P.fileSize ≤ c.limit →
    ∃ Q g, Pool.writeLoop c bufs a deep n P f T.top = .ok (Q, g) ∧ g.size ≤ f.size + 2 * roomAll D (T :: Ts)
  | Ts, T, 0, P, fl, f, _, _, _, _, _, _, _, _, h, _, _ => absurd h (by omega)
  | Ts, T, n+1, P, fl, f, k, hL, hm, ha, hb, hq, hs, hd, hn, hroom, hlim => by
    have hm0 : T.top ∈ els := hm _ (by simp [tops])
    have hb' : D.Below T ∧ D.BelowAll Ts := by unfold Doc.BelowAll at hb; exact hb
    have hq' : D.Every D.storedElem D.storedAttr T ∧ D.EveryAll D.storedElem D.storedAttr Ts := by unfold Doc.EveryAll at hq; exact hq
    have hs' : D.Small P.fileSize T ∧ D.SmallAll P.fileSize Ts := by unfold Doc.SmallAll Doc.EveryAll at hs; exact hs
    unfold Doc.stepsAll at hd
    rw [roomAll_cons] at hroom ⊢
    unfold Pool.writeLoop
    rw [source_spec k hr T deep hb'.1 hm0 hq'.1 (by omega), Out.ok_bind]
    have r1 := src_room k T hb'.1 hm0 hq'.1 hs'.1
    have r2 := room_length D (treeEls T)
    have hsz := k.sees.size
    obtain ⟨f1, g1, g2⟩ := append_total hflt (bufs n) f (srcElem P D T) (src_doc k _ _ T hb'.1 hm0 hq'.1 hs'.1 (by omega)) (srcElem_ok k _ T hb'.1 hm0 hq'.1) (by omega)
    rw [g1, Out.ok_bind]
    have hw : ∃ P1, P.setWritten T.top = .ok P1 ∧ P1.fileSize = P.fileSize := by
      unfold Pool.setWritten
      rw [k.sees.flags hm0, Out.ok_bind]
      obtain ⟨Q', h1, h2, h3⟩ := k.sees.setFlags hm0 (fl T.top ||| 4) _ rfl
      exact ⟨Q', h1, by rw [h3.rest]⟩
    obtain ⟨P1, w1, w2⟩ := hw
    have k1 := k.mark hm0 w1
    rw [w1, Out.ok_bind, k1.sees.nx hm0, Out.ok_bind]
    match Ts, hL, hm, ha, hb', hq', hs', hd, hn, hroom with
    | [], hL, hm, ha, hb', hq', hs', hd, hn, hroom =>
      have hnx : V 8 T.top = a := by simp [Links, tops] at hL; exact hL.1
      have := k.sees.range a hae
      rw [hnx, if_neg (by omega), if_pos rfl]
      exact ⟨_, _, rfl, by omega⟩
    | T2 :: Ts, hL, hm, ha, hb', hq', hs', hd, hn, hroom =>
      simp only [tops, List.map_cons, List.cons_append, Links] at hL
      have hne : T2.top ≠ a := fun e => ha (by simp [tops, e])
      have := k.sees.range T2.top (hm _ (by simp [tops]))
      rw [hL.1.1, if_neg (by omega), if_neg (by omega)]
      rw [List.length_cons] at hn
      obtain ⟨Q, g, i1, i2⟩ := write_total (bufs := bufs) (deep := deep) hflt hr hae Ts T2 n P1 _ f1 k1 (by simpa [tops] using hL.2)
          (fun x hx => hm x (by simp only [tops, List.map_cons] at hx ⊢; exact List.mem_cons_of_mem _ hx))
          (fun h' => ha (by simp only [tops, List.map_cons] at h' ⊢; exact List.mem_cons_of_mem _ h')) hb'.2 hq'.2 (w2 ▸ hs'.2) (by omega) (by omega) (by rw [w2]; omega) (by rw [w2]; exact hlim)
      exact ⟨Q, g, i1, by omega⟩

/-- a call of `Write` succeeds, and what it writes is at most twice as long as the document -/
theorem batch_total {E : Env} {maxSize : Nat} (h1 : 0x4000 ≤ maxSize) (h2 : maxSize < 2147483648) {c : Ctx} (hflt : ∀ s, (c.flt s).length = 4) {syms : Bool → List Sym} {w : WriteCall} (v : w.Valid E maxSize c.limit syms) (f : Img) :
    ∃ Q g, w.P.write c w.bufs w.deep w.fuel f w.e = .ok (Q, g) ∧ g.size ≤ f.size + 2 * w.P.fileSize := by
  obtain ⟨els, V, fl, k⟩ := sess_keeps h1 h2 v.sess
  obtain ⟨⟨q, q1, q2⟩, b1, b2⟩ := v.batch
  obtain ⟨P, D, e, Ts, bufs, deep, fuel⟩ := w
  simp only at q1 q2 b1 b2 k ⊢
  have hsmall := v.small
  have hroom := v.room
  have hdeep := v.deep
  have hfuel := v.fuel
  have hready := v.ready
  simp only at hsmall hroom hdeep hfuel hready
  obtain ⟨x, y, e1, e2, e3⟩ := split_at q1
  have hp := q2 ▸ fromElem_perm (t := e) (l := D.forest.at' q)
  have hring := k.lists.ring q
  rw [e1, Circle_rot] at hring
  rw [e3] at q2
  match Ts, q2, hfuel with
  | [], q2, _ => simp [tops] at q2
  | T :: Ts, q2, hfuel =>
    have hT : T.top = e ∧ tops Ts = y ++ x := by
      have : tops (T :: Ts) = T.top :: tops Ts := rfl
      rw [this] at q2
      exact ⟨(List.cons.inj q2).1, (List.cons.inj q2).2⟩
    have hnd : (tops (T :: Ts)).Nodup := hp.nodup_iff.2 (k.lists.nodup q)
    have hne : e ∉ tops Ts := by
      have : tops (T :: Ts) = T.top :: tops Ts := rfl
      rw [this, List.nodup_cons, hT.1] at hnd
      exact hnd.1
    have hL : Links (V 8) (V 12) (tops (T :: Ts) ++ [e]) := by
      rw [q2]; exact hring
    have hin : ∀ z ∈ tops (T :: Ts), z ∈ els := fun z hz => (k.lists.mem z).1 ⟨q, hp.mem_iff.1 hz⟩
    have hfit : roomAll D (T :: Ts) ≤ P.fileSize := trees_fit k _ b1 hin b2 (batch_nodup k (fun z hz => hp.mem_iff.1 hz) hnd b1)
    unfold Pool.write
    rw [← hT.1]
    obtain ⟨Q, g, i1, i2⟩ := write_total (a := T.top) (bufs := bufs) (deep := deep) hflt hready (hin _ (by simp [tops])) Ts T fuel P fl f k (hT.1 ▸ hL) hin (hT.1 ▸ hne) b1 b2 hsmall hdeep (by rw [List.length_cons] at hfuel; omega) hfit hroom
    exact ⟨Q, g, i1, by omega⟩

theorem writeAll_total {E : Env} {maxSize : Nat} (h1 : 0x4000 ≤ maxSize) (h2 : maxSize < 2147483648) {c : Ctx} (hflt : ∀ s, (c.flt s).length = 4) {syms : Bool → List Sym} : ∀ (ws : List WriteCall) (f : Img),
    (∀ w ∈ ws, w.Valid E maxSize c.limit syms) → f.size + (ws.map fun w => 2 * w.P.fileSize).sum + c.limit < 2147483648 →
    ∃ g, writeAll c ws f = .ok g ∧ g.size ≤ f.size + (ws.map fun w => 2 * w.P.fileSize).sum ∧ Batches E maxSize c syms f (ws.flatMap fun w => w.D.elemsOf w.Ts) g
  | [], f, _, _ => ⟨f, rfl, by simp, .none f⟩
  | w :: ws, f, hv, hsz => by
    have v := hv w (by simp)
    obtain ⟨Q, g, g1, g2⟩ := batch_total h1 h2 hflt v f
    simp only [List.map_cons, List.sum_cons] at hsz ⊢
    obtain ⟨h, i1, i2, i3⟩ := writeAll_total h1 h2 hflt ws g (fun w hw => hv w (List.mem_cons_of_mem _ hw)) (by omega)
    have hroom := v.room
    refine ⟨h, ?_, by omega, ?_⟩
    · unfold writeAll
      rw [g1, Out.ok_bind]
      exact i1
    · rw [List.flatMap_cons]
      exact .write v.sess v.ready v.syms v.batch v.deep g1 (by omega) (by omega) i3

end BX
