import Verif.Lemmas.Pack
namespace BX
open XBT Spec

/-- the own part of the item `t` holds the name, the value and the attributes -/
structure OwnAt (c : Ctx) (m : Mem) (t : IT) (name : BStr) (value : SVal) (params : List (BStr × SVal)) : Prop where
  nm : Has m t.x (leN 2 (toU 16 (c.tags.find (some name))))
  cnt : t.pc = params.length
  val : ∃ d, nodeData c.flt value = some d ∧ Sized d ∧ Has m (t.x + 12 + 8 * t.pc + 4 * t.kids.length) [d.type.code] ∧
    Has m (alignN d.type (t.x + 12 + 8 * t.pc + 4 * t.kids.length + 1)) d.bytes ∧
    alignN d.type (t.x + 12 + 8 * t.pc + 4 * t.kids.length + 1) + d.bytes.length ≤ t.x + t.own
  room : 12 + 8 * t.pc + 4 * t.kids.length < t.own
  par : ∀ i (hi : i < params.length), AttrAt m t.x (t.x + 12 + 8 * i) (t.x + 12 + 8 * t.pc + 4 * t.kids.length) (t.x + t.own) (c.params.find (some params[i].1))
    (attrData c.flt (c.ptype params[i].1) params[i].2)

mutual
/-- the items of `t` hold the elements of the tree -/
def Fits (c : Ctx) (m : Mem) : Elem → IT → Prop
  | .mk name value params children, t => OwnAt c m t name value params ∧ FitsAll c m children t.kids
def FitsAll (c : Ctx) (m : Mem) : List Elem → List IT → Prop
  | [], [] => True
  | e :: es, k :: ks => Fits c m e k ∧ FitsAll c m es ks
  | [], _ :: _ => False
  | _ :: _, [] => False
end

theorem FitsAll.length {c : Ctx} {m : Mem} : ∀ {es : List Elem} {ks : List IT}, FitsAll c m es ks → es.length = ks.length
  | [], [], _ => rfl
  | e :: es, k :: ks, h => by
    unfold FitsAll at h
    simp [FitsAll.length h.2]
  | [], _ :: _, h => by unfold FitsAll at h; exact h.elim
  | _ :: _, [], h => by unfold FitsAll at h; exact h.elim

mutual
/-- no element gets an id used by the packer -/
theorem Fits.named {c : Ctx} {m : Mem} : ∀ (e : Elem) (t : IT), Fits c m e t →
    NamesIn (fun s => -32768 ≤ c.tags.find (some s) ∧ c.tags.find (some s) ≤ 32767 ∧ c.tags.find (some s) ≠ -7 ∧ c.tags.find (some s) ≠ -8) (fun _ => True) e → Named m t
  | .mk name value params children, t, h, hn => by
    unfold Fits at h
    unfold NamesIn at hn
    intro n hmem
    rcases mem_nodes.1 hmem with rfl | ⟨k, k1, k2⟩
    · exact ⟨_, hn.1.1, hn.1.2.1, hn.1.2.2.1, hn.1.2.2.2, h.1.nm⟩
    · exact FitsAll.named children t.kids h.2 hn.2.2 k k1 n k2
theorem FitsAll.named {c : Ctx} {m : Mem} : ∀ (es : List Elem) (ks : List IT), FitsAll c m es ks →
    NamesInAll (fun s => -32768 ≤ c.tags.find (some s) ∧ c.tags.find (some s) ≤ 32767 ∧ c.tags.find (some s) ≠ -7 ∧ c.tags.find (some s) ≠ -8) (fun _ => True) es →
    ∀ k ∈ ks, Named m k
  | [], [], _, _ => by simp
  | e :: es, k :: ks, h, hn => by
    unfold FitsAll at h
    unfold NamesInAll at hn
    intro k' hk'
    rcases List.mem_cons.1 hk' with rfl | hk'
    · exact Fits.named e _ h.1 hn.1
    · exact FitsAll.named es ks h.2 hn.2 k' hk'
  | [], _ :: _, h, _ => by unfold FitsAll at h; exact h.elim
  | _ :: _, [], h, _ => by unfold FitsAll at h; exact h.elim
end

mutual
theorem writeNode_tree {c : Ctx} (hflt : ∀ s, (c.flt s).length = 4) (hlim : c.limit < 2147483648) : ∀ (e : Elem) {m : Mem} {wp : Nat} {m' : Mem} {wp' x : Nat},
    writeNode c e m wp = .ok (m', wp', x) → TreeOk c.ptype e → wp' < c.limit →
    ∃ t : IT, t.x = x ∧ t.stop = wp' ∧ t.nodes.length = e.count ∧ ∀ M : Mem, (∀ a, x ≤ a → a < wp' → M a = m' a) → At M t ∧ Fits c M e t
  | .mk name value params children, m, wp, m', wp', x, h, hok, hfull => by
    have hmono := writeNode_mono _ h hok
    unfold TreeOk at hok
    unfold writeNode at h
    simp only at h
    split at h
    · cases h
    · next hcnt =>
      obtain ⟨m1, hm1, h⟩ := Out.bind_eq_ok h
      obtain ⟨⟨m2, w2⟩, hm2, h⟩ := Out.bind_eq_ok h
      obtain ⟨⟨m3, w3⟩, hm3, h⟩ := Out.bind_eq_ok h
      obtain ⟨⟨m4, w4⟩, hm4, h⟩ := Out.bind_eq_ok h
      obtain ⟨m5, hm5, h⟩ := Out.bind_eq_ok h
      simp only [Out.pure_eq, Out.ok.injEq, Prod.mk.injEq] at h
      obtain ⟨rfl, rfl, rfl⟩ := h
      have hx : aa wp % 4 = 0 := aa_mod wp
      generalize aa wp = x at *
      obtain ⟨rfl, l1⟩ := put_ok hm1
      obtain ⟨rfl, l5⟩ := put_ok hm5
      simp only at hm3 hm4 hfull l5 hmono ⊢
      have b := writeParams_mono hm3 hok.2.1
      have d := writeChildren_mono children hm4 hok.2.2
      obtain ⟨v1, v2, dv, v3, v4, v5, v6, v7⟩ := writeValue_spec hflt hm2 hok.1 (by omega) hlim
      obtain ⟨p1, p2⟩ := writeParams_spec hflt hlim hm3 hok.2.1 (by omega) (by omega) (by omega)
      obtain ⟨c1, -⟩ := writeChildren_spec hflt hlim children hm4 hok.2.2 (by omega) (by omega) hfull
      obtain ⟨ks, k1, k2, k3, k4, k5⟩ := writeChildren_tree hflt hlim children hm4 hok.2.2 (by omega) (by omega) hfull
      have how : w3 ≤ x + (IT.mk x (w4 - x) params.length ks).own ∧ aa (x + (IT.mk x (w4 - x) params.length ks).own) = aa w3 ∧
          (ks = [] → x + (IT.mk x (w4 - x) params.length ks).own = w3) := by
        cases ks with
        | nil =>
          have := k4 rfl
          refine ⟨?_, ?_, fun _ => ?_⟩
          · show w3 ≤ x + (w4 - x); omega
          · show aa (x + (w4 - x)) = _; rw [show x + (w4 - x) = w3 by omega]
          · show x + (w4 - x) = _; omega
        | cons k ks' =>
          have := k3 k ks' rfl
          have g := aa_ge w3
          refine ⟨?_, ?_, fun h => by cases h⟩
          · show w3 ≤ x + (k.x - x); omega
          · show aa (x + (k.x - x)) = _
            rw [show x + (k.x - x) = aa w3 by omega]
            exact aa_of_mod (aa_mod w3)
      refine ⟨.mk x (w4 - x) params.length ks, rfl, ?_, ?_, ?_⟩
      · show x + (w4 - x) = w4
        omega
      · rw [show (IT.mk x (w4 - x) params.length ks).nodes = IT.mk x (w4 - x) params.length ks :: nodesL ks by rw [IT.nodes], List.length_cons, k2, Elem.count]
        omega
      · intro M hag
        obtain ⟨how1, how2, how3⟩ := how
        have hole : x + (IT.mk x (w4 - x) params.length ks).own ≤ w4 := by
          obtain ⟨q1, -⟩ := k5 M (fun a a1 a2 => by
              rw [hag a (by omega) (by omega), memPut_frame _ _ _ _ (by rw [le32_length]; omega)])
            (fun a a1 a2 => by
              rw [hag a (by omega) (by omega), memPut_frame _ _ _ _ (by rw [le32_length]; omega)])
          cases ks with
          | nil => rw [how3 rfl]; exact d
          | cons k ks' =>
            unfold AtKids at q1
            have h1 := AtKids.le _ _ _ _ _ q1.2.2.2
            have := q1.2.2.1.len_ge
            have : x ≤ k.x := by have := aa_ge w3; omega
            unfold IT.stop at h1
            show x + (k.x - x) ≤ w4
            omega
        generalize hown : (IT.mk x (w4 - x) params.length ks).own = own at *
        have k4 : ∀ a bs, x ≤ a → a + bs.length ≤ w4 → (a + bs.length ≤ x + 8 ∨ x + 12 ≤ a) → Has m4 a bs → Has M a bs := by
          intro a bs h1 h2 h3 h4
          have := h4.frame (d := x + 8) (cs := le32 ((w4 : Int) - x)) (by rw [le32_length]; omega)
          exact this.congr (fun i i1 i2 => hag i (by omega) (by omega))
        have k3 : ∀ a bs, x ≤ a → a + bs.length ≤ w3 → (a + bs.length ≤ x + 8 ∨ x + 12 ≤ a) →
            (a + bs.length ≤ x + 12 + 8 * params.length ∨ x + 12 + 8 * params.length + 4 * children.length ≤ a) → Has m3 a bs → Has M a bs := by
          intro a bs h1 h2 h3 h4 h5
          exact k4 a bs h1 (by omega) h3 (h5.congr (fun i i1 i2 => c1 i (by omega) (by omega)))
        have k2 : ∀ a bs, x ≤ a → a + bs.length ≤ w2 → (a + bs.length ≤ x + 8 ∨ x + 12 + 8 * params.length + 4 * children.length ≤ a) → Has m2 a bs → Has M a bs := by
          intro a bs h1 h2 h3 h5
          exact k3 a bs h1 (by omega) (by omega) (by omega) (h5.congr (fun i i1 i2 => p1 i (by omega) (by omega)))
        have hhd := Has.self m x (headBytes (c.tags.find (some name)) params.length children.length)
        have k1' : ∀ a bs, x ≤ a → a + bs.length ≤ x + 8 → Has (memPut m x (headBytes (c.tags.find (some name)) params.length children.length)) a bs → Has M a bs := by
          intro a bs h1 h2 h5
          exact k2 a bs h1 (by omega) (by omega) (h5.congr (fun i i1 i2 => v2 i (by omega)))
        unfold headBytes at hhd
        rw [Has.append, Has.append] at hhd
        simp only [leN_length, List.length_append] at hhd
        obtain ⟨q1, q2⟩ := k5 M (fun a a1 a2 => by
            rw [hag a (by omega) (by omega), memPut_frame _ _ _ _ (by rw [le32_length]; omega)])
          (fun a a1 a2 => by
            rw [hag a (by omega) (by omega), memPut_frame _ _ _ _ (by rw [le32_length]; omega)])
        refine ⟨?_, ?_⟩
        · unfold At
          rw [hown]
          refine ⟨hx, by omega, by omega, by omega, k1' _ _ (by omega) (by rw [leN_length]; omega) hhd.1.2, ?_, ?_, ?_⟩
          · rw [k1]; exact k1' _ _ (by omega) (by rw [le32_length]; omega) hhd.2
          · rw [show ((w4 - x : Nat) : Int) = (w4 : Int) - x by omega]
            exact (Has.self m4 _ _).congr (fun i i1 i2 => hag i (by omega) (by rw [le32_length] at i2; omega))
          · rw [show x + (w4 - x) = w4 by omega]
            cases ks with
            | nil =>
              unfold AtKids at q1 ⊢
              rw [how3 rfl]; exact q1
            | cons k ks' =>
              unfold AtKids at q1 ⊢
              exact ⟨q1.1, by rw [how2]; exact q1.2.1, q1.2.2⟩
        · unfold Fits
          refine ⟨⟨k1' _ _ (by show x ≤ x; omega) (by rw [leN_length]; show x + 2 ≤ x + 8; omega) hhd.1.1, rfl, ?_, ?_, ?_⟩, q2⟩
          · show ∃ d : Data, _ ∧ _ ∧ Has M (x + 12 + 8 * params.length + 4 * ks.length) _ ∧ Has M (alignN d.type (x + 12 + 8 * params.length + 4 * ks.length + 1)) _ ∧
              alignN d.type (x + 12 + 8 * params.length + 4 * ks.length + 1) + d.bytes.length ≤ x + (IT.mk x (w4 - x) params.length ks).own
            rw [hown, k1]
            have hge := alignN_ge dv.type (x + 12 + 8 * params.length + 4 * children.length + 1)
            exact ⟨dv, v3, v4, k2 _ _ (by omega) (by simp only [List.length_cons, List.length_nil]; omega) (by omega) v5,
              k2 _ _ (by omega) (by omega) (by omega) v6, by omega⟩
          · show 12 + 8 * params.length + 4 * ks.length < (IT.mk x (w4 - x) params.length ks).own
            rw [hown]; omega
          · intro i hi
            show AttrAt M x (x + 12 + 8 * i) (x + 12 + 8 * params.length + 4 * ks.length) (x + (IT.mk x (w4 - x) params.length ks).own) _ _
            rw [hown]
            refine (p2 i hi).congr (by omega) ?_ ?_ _ (by omega)
            · intro a a1 a2
              rw [hag a (by omega) (by omega), memPut_frame _ _ _ _ (by rw [le32_length]; omega), c1 a (by omega) (by omega)]
            · intro a a1 a2
              rw [hag a (by omega) (by omega), memPut_frame _ _ _ _ (by rw [le32_length]; omega), c1 a (by omega) (by omega)]
theorem writeChildren_tree {c : Ctx} (hflt : ∀ s, (c.flt s).length = 4) (hlim : c.limit < 2147483648) {x : Nat} : ∀ (es : List Elem) {ca : Nat} {m : Mem} {wp : Nat} {m' : Mem} {wp' : Nat},
    writeChildren c x es ca m wp = .ok (m', wp') → TreeOkAll c.ptype es → x + 12 ≤ ca → ca + 4 * es.length ≤ wp → wp' < c.limit →
    ∃ ks : List IT, ks.length = es.length ∧ (nodesL ks).length = countL es ∧ (∀ k ks', ks = k :: ks' → k.x = aa wp) ∧ (ks = [] → wp' = wp) ∧
      ∀ M : Mem, (∀ a, ca ≤ a → a < ca + 4 * es.length → M a = m' a) → (∀ a, wp ≤ a → a < wp' → M a = m' a) → AtKids M ks x ca wp wp' ∧ FitsAll c M es ks
  | [], ca, m, wp, m', wp', h, hok, hxc, hcw, hfull => by
    unfold writeChildren at h
    cases h
    exact ⟨[], rfl, by unfold nodesL countL; rfl, by simp, fun _ => rfl, fun M _ _ => ⟨by unfold AtKids; rfl, by unfold FitsAll; trivial⟩⟩
  | e :: es, ca, m, wp, m', wp', h, hok, hxc, hcw, hfull => by
    unfold TreeOkAll at hok
    unfold writeChildren at h
    obtain ⟨⟨m1, w1, y⟩, h1, h⟩ := Out.bind_eq_ok h
    obtain ⟨m2, hm2, h⟩ := Out.bind_eq_ok h
    obtain ⟨rfl, l2⟩ := put_ok hm2
    simp only at h l2
    simp only [List.length_cons] at hcw
    obtain ⟨e1, e2⟩ := writeNode_mono e h1 hok.1
    have hm := writeChildren_mono es h hok.2
    have hge := aa_ge wp
    have hlt := aa_lt wp
    obtain ⟨t, t1, t2, t3, t4⟩ := writeNode_tree hflt hlim e h1 hok.1 (by omega)
    obtain ⟨i1, -⟩ := writeChildren_spec hflt hlim es h hok.2 (by omega) (by omega) hfull
    obtain ⟨ks, k1, k2, k3, k4, k5⟩ := writeChildren_tree hflt hlim es h hok.2 (by omega) (by omega) hfull
    refine ⟨t :: ks, by simp [k1], ?_, ?_, by simp, ?_⟩
    · unfold nodesL countL
      rw [List.length_append, t3, k2]
    · intro k ks' he
      cases he
      omega
    · intro M hag1 hag2
      simp only [List.length_cons] at hag1
      obtain ⟨r1, r2⟩ := t4 M (fun a a1 a2 => by
        rw [hag2 a (by omega) (by omega), i1 a (by omega) (by omega), memPut_frame _ _ _ _ (by rw [le32_length]; omega)])
      obtain ⟨j1, j2⟩ := k5 M (fun a a1 a2 => hag1 a (by omega) (by omega)) (fun a a1 a2 => hag2 a (by omega) a2)
      have hptr : Has M ca (le32 ((y : Int) - x)) := by
        have := (Has.self m1 ca (le32 ((y : Int) - x)))
        refine this.congr (fun a a1 a2 => ?_)
        rw [le32_length] at a2
        rw [hag1 a (by omega) (by omega), i1 a (by omega) (by omega)]
      unfold AtKids FitsAll
      rw [t2, t1]
      exact ⟨⟨hptr, e1, r1, j1⟩, r2, j2⟩
end

end BX
