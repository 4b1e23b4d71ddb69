import Verif.Model.CrashClear
import Verif.Lemmas.CrashTable
import Verif.Lemmas.Crash
import Verif.Lemmas.Session
/-
The stores of clearing a document.
-/
namespace BX
open XBT Spec

theorem killed_append {P C : Pool} {xs ys : List Store} (h : P.KilledIn (xs ++ ys) C) : P.KilledIn xs C ∨ ∃ Q, P.stores xs = .ok Q ∧ Q.KilledIn ys C := by
  obtain ⟨done, rest, he, h⟩ := h
  rcases List.append_eq_append_iff.1 he with ⟨a, rfl, hb⟩ | ⟨b, rfl, hb⟩
  · right
    rcases h with h | ⟨p, bs, rest', Q, m, e, h, hC⟩
    · rw [stores_append] at h
      obtain ⟨Q, q1, q2⟩ := Out.bind_eq_ok h
      exact ⟨Q, q1, a, rest, hb, Or.inl q2⟩
    · rw [stores_append] at h
      obtain ⟨R, q1, q2⟩ := Out.bind_eq_ok h
      exact ⟨R, q1, a, rest, hb, Or.inr ⟨p, bs, rest', Q, m, e, q2, hC⟩⟩
  · rcases h with h | ⟨p, bs, rest', Q, m, e, h, hC⟩
    · exact Or.inl ⟨done, b, rfl, Or.inl h⟩
    · cases b with
      | nil =>
        rw [List.nil_append] at hb
        right
        refine ⟨Q, by simpa using h, [], ys, rfl, Or.inr ⟨p, bs, rest', Q, m, by rw [← hb]; exact e, rfl, hC⟩⟩
      | cons x b =>
        left
        rw [hb, List.cons_append] at e
        simp only [List.cons.injEq] at e
        exact ⟨done, x :: b, rfl, Or.inr ⟨p, bs, b, Q, m, by rw [e.1], h, hC⟩⟩

/-- a store that is done or not -/
theorem killed_cons {P Q C : Pool} {s : Store} {ss : List Store} (hs : ∀ a bs, s ≠ .bytes a bs) (hq : P.store1 s = .ok Q) (h : P.KilledIn (s :: ss) C) : C = P ∨ Q.KilledIn ss C := by
  rcases killed_append (xs := [s]) (ys := ss) h with h | ⟨R, h1, h2⟩
  · rcases killed_snoc (ss := []) hs h with h | h
    · obtain ⟨done, rest, he, h⟩ := h
      obtain ⟨rfl, rfl⟩ := List.append_eq_nil_iff.1 he.symm
      rcases h with h | ⟨a, bs, r, Q, m, e, -⟩
      · cases h; exact Or.inl rfl
      · cases e
    · right
      have : P.stores [s] = .ok Q := by show (P.store1 s >>= fun S => S.stores []) = _; rw [hq]; rfl
      rw [List.nil_append, this] at h
      cases h
      exact ⟨[], ss, rfl, Or.inl rfl⟩
  · have : P.stores [s] = .ok Q := by show (P.store1 s >>= fun S => S.stores []) = _; rw [hq]; rfl
    rw [this] at h1
    cases h1
    exact Or.inr h2

/-- the elements are forgotten, and perhaps the indexes -/
theorem Keeps.bare {P Q : Pool} {D : Doc} {els V fl} (k : Keeps P D els V fl) (hQ : PoolOk Q) (hm : Q.mmapSize = P.mmapSize) (hr : Q.root = 0) {r : Bool → Bool} (ht : ∀ b, TabOk Q (Q.tab b) (D.syms b))
    (hrdy : ∀ b, r b = true → D.syms b ≠ [] → (Q.tab b).index ≠ 0) (hn : ∀ b i, inNames (Q.tab b) (D.syms b) i → inNames (P.tab b) (D.syms b) i) (hi : ∀ b i, inIndex (Q.tab b) (D.syms b) i → inIndex (P.tab b) (D.syms b) i) :
    Keeps Q { D.cleared with ready := r } [] (fun _ _ => 0) (fun _ => 0) := by
  have hel : ∀ e, ¬ D.cleared.forest.Elem e := by
    intro e
    simp [Forest.Elem, Doc.cleared, Doc.empty, Forest.none]
  refine ⟨⟨hQ, by rw [hm]; exact k.sees.small, by simp, by simp, by simp, by simp, by simp, by simp⟩, ?_, ht, hrdy, by simp, ?_, hr⟩
  · refine ⟨?_, by simp [Doc.cleared, Doc.empty, Forest.none], by simp [Doc.cleared, Doc.empty, Forest.none], fun _ => trivial, by simp, by simp [Doc.cleared, Doc.empty, Forest.none], by simp,
      by simp [Doc.cleared, Doc.empty, Forest.none], by simp [Doc.cleared, Doc.empty, Forest.none], by simp [Doc.cleared, Doc.empty, Forest.none]⟩
    intro e
    simp [Forest.Elem, Doc.cleared, Doc.empty, Forest.none]
  · have hin : ∀ p i, inPart Q { D.cleared with ready := r } p i → inPart P D p i := by
      intro p i hp
      cases p with
      | elem e => exact absurd hp.1 (hel e)
      | names b => exact hn b i hp
      | index b => exact hi b i hp
    exact fun p q i h1 h2 => k.apart p q i (hin p i h1) (hin q i h2)

/-- making the index of a table, and being killed in it -/
theorem table_part {P : Pool} {D : Doc} {els V fl} (k : Keeps P D els V fl) {b : Bool} (hi : (P.tab b).index = 0) (hr : P.alloc + 4 * (D.syms b).length ≤ P.limit) :
    ∃ Q ss, P.makeTable b = .ok (Q, true) ∧ P.indexStoresOf b = .ok ss ∧ P.stores ss = .ok Q ∧ Q.limit = P.limit ∧ Q.alloc = P.alloc + 4 * (D.syms b).length ∧ (∀ c, c ≠ b → Q.tab c = P.tab c) ∧
      Keeps Q { D with ready := fun c => D.ready c || decide (c = b) } els V fl ∧ ∀ C, P.KilledIn ss C → ∃ r, Keeps C { D with ready := r } els V fl := by
  obtain ⟨Q, hQ, hlim⟩ := makeTable_ok k.sees.ok k.sees.small (k.tabs b) hr
  obtain ⟨m1, -, -, -, -, m6⟩ := makeTable_spec k.sees.ok k.sees.small (k.tabs b) hQ
  have kq := k.index hQ hi
  simp only [Bool.and_true] at kq
  have hmx := (k.tabs b).max
  unfold Pool.indexStoresOf
  by_cases hl : D.syms b = []
  · have hmx' : (P.tab b).maxId < 0 := by rw [hmx, hl]; decide
    have hself : P.setTab b { P.tab b with index := 0 } = P := by
      have : ({ P.tab b with index := 0 } : Tab16) = P.tab b := by
        cases hT : P.tab b; rw [hT] at hi; simp only at hi; rw [hi]
      rw [this, setTab_self]
    have : Q = P := by
      unfold Pool.makeTable at hQ
      simp only [hself] at hQ
      rw [if_pos hmx'] at hQ
      simp only [Out.pure_eq, Out.ok.injEq, Prod.mk.injEq, and_true] at hQ
      exact hQ.symm
    rw [if_pos hmx']
    refine ⟨Q, [], hQ, rfl, by rw [this]; rfl, hlim, m6 rfl, m1.other, kq, ?_⟩
    rintro C ⟨done, rest, he, h⟩
    obtain ⟨rfl, rfl⟩ := List.append_eq_nil_iff.1 he.symm
    rcases h with h | ⟨a, bs, r, Q, m, e, -⟩
    · cases h; exact ⟨D.ready, k⟩
    · cases e
  · have hpos := List.length_pos_iff.2 hl
    rw [if_neg (by omega)]
    obtain ⟨R, ss, T, t1, t2, t3, t4⟩ := table_stores k.sees.ok k.sees.small (k.tabs b) hi hl hr
    rw [hQ] at t1
    cases t1
    refine ⟨Q, _, hQ, t2, t3, hlim, m6 rfl, m1.other, kq, fun C hk => ?_⟩
    rcases killed_snoc (by simp) hk with hk | hk
    · exact ⟨D.ready, k.got (killed_got k.sees.ok t4 hk)⟩
    · rw [t3] at hk
      cases hk
      exact ⟨_, kq⟩

/-- the names of tags and attributes are at the places where `Clear` puts them -/
def InPlace (P : Pool) (D : Doc) : Prop := P.tags.names = poolHeader ∧ (P.params.names = poolHeader + symsLen (D.syms true) ∨ D.syms false = [])

theorem InPlace.le {P : Pool} {D : Doc} {els V fl} (k : Keeps P D els V fl) (h : InPlace P D) : poolHeader + symsLen (D.syms true) + symsLen (D.syms false) ≤ P.alloc := by
  have hhd : poolHeader ≠ 0 := by decide
  obtain ⟨n1, n2, n3, n4⟩ := (k.tabs true).names (by show P.tags.names ≠ 0; rw [h.1]; exact hhd)
  replace n3 : P.tags.names + _ ≤ _ := n3
  have h1 := h.1
  by_cases hl : D.syms false = []
  · rw [hl]; simp only [symsLen]; omega
  · have h2 := h.2.resolve_right hl
    have n := ((k.tabs false).names ((k.tabs false).some hl)).2.2.1
    replace n : P.params.names + _ ≤ _ := n
    omega

/-- the stores of `Clear` up to the indexes -/
theorem empty_part {P : Pool} {D : Doc} {els V fl} (k : Keeps P D els V fl) (h : InPlace P D) : ∃ Q, Pool.stores { P with root := 0 } (Pool.emptyStores { P with root := 0 } (symsLen (D.syms true)) (symsLen (D.syms false))) = .ok Q ∧
    Q = { P with root := 0, tags := { P.tags with names := poolHeader, index := 0 }, params := { P.params with names := poolHeader + symsLen (D.syms true), index := 0 }, alloc := poolHeader + symsLen (D.syms true) + symsLen (D.syms false), mem := Q.mem } ∧
    Q.mem = memPut P.mem (poolHeader + symsLen (D.syms true) + symsLen (D.syms false)) (List.replicate (P.alloc - (poolHeader + symsLen (D.syms true) + symsLen (D.syms false))) 0) ∧
    Keeps Q { D.cleared with ready := fun _ => false } [] (fun _ _ => 0) (fun _ => 0) ∧
    ∀ C, Pool.KilledIn { P with root := 0 } (Pool.emptyStores { P with root := 0 } (symsLen (D.syms true)) (symsLen (D.syms false))) C → ∃ r, Keeps C { D.cleared with ready := r } [] (fun _ _ => 0) (fun _ => 0) := by
  have hle := h.le k
  obtain ⟨h1, h2⟩ := h
  have hhd : poolHeader ≠ 0 := by decide
  have hph : poolHeader % 4 = 0 := by decide
  have hmt := symsLen_mod (D.syms true)
  have hmp := symsLen_mod (D.syms false)
  have hP := k.sees.ok
  have hal := hP.le; have hlim := hP.lim
  have kt : TabOk P P.tags (D.syms true) := k.tabs true
  have kp : TabOk P P.params (D.syms false) := k.tabs false
  have htn : ({ P.tags with names := poolHeader } : Tab16) = P.tags := by rw [← h1]
  obtain ⟨n1, n2, n3, n4⟩ := kt.names (by rw [h1]; exact hhd)
  rw [h1] at n4
  -- the tables
  have tB : ∀ Q : Pool, poolHeader + symsLen (D.syms true) ≤ Q.alloc → (∀ i, i < poolHeader + symsLen (D.syms true) + symsLen (D.syms false) → Q.mem i = P.mem i) → TabOk Q { P.tags with names := poolHeader, index := 0 } (D.syms true) := by
    intro Q q1 q2
    refine kt.moved (Nat.le_refl _) hph q1 (n4.congr fun i i1 i2 => ?_)
    rw [encSyms_length] at i2
    exact q2 i (by omega)
  have pn : Has P.mem (poolHeader + symsLen (D.syms true)) (encSyms 0 (D.syms false)) := by
    by_cases hl : D.syms false = []
    · rw [hl]; rfl
    · have := (kp.names (kp.some hl)).2.2.2
      rw [h2.resolve_right hl] at this
      exact this
  have pB : ∀ Q : Pool, poolHeader + symsLen (D.syms true) + symsLen (D.syms false) ≤ Q.alloc → (∀ i, i < poolHeader + symsLen (D.syms true) + symsLen (D.syms false) → Q.mem i = P.mem i) → TabOk Q { P.params with names := poolHeader + symsLen (D.syms true), index := 0 } (D.syms false) := by
    intro Q q1 q2
    refine kp.moved (by omega) (by omega) q1 (pn.congr fun i i1 i2 => ?_)
    rw [encSyms_length] at i2
    exact q2 i (by omega)
  have pC : ∀ Q : Pool, Q.alloc = P.alloc → Q.mem = P.mem → TabOk Q { P.params with names := poolHeader + symsLen (D.syms true) } (D.syms false) := by
    intro Q q1 q2
    by_cases hc : P.params.names = poolHeader + symsLen (D.syms true)
    · rw [← hc]; exact kp.frame (by omega) fun i _ => by rw [q2]
    · have hl := h2.resolve_left hc
      rw [hl] at kp ⊢
      refine ⟨kp.max, kp.few, kp.good, kp.nodup, kp.slow, by simp, fun _ => ⟨by show poolHeader ≤ poolHeader + _; omega, by show (poolHeader + _) % 4 = 0; omega, by show poolHeader + _ + 0 ≤ _; omega, ?_⟩, fun hx => ⟨by show poolHeader + _ ≠ 0; omega, ?_⟩⟩
      · rfl
      · obtain ⟨-, x1, x2, x3⟩ := kp.index hx
        exact ⟨x1, by rw [q1]; exact x2, rfl⟩
  have pnn : ∀ (T : Tab16) i, T.names = poolHeader + symsLen (D.syms true) → inNames T (D.syms false) i → inNames P.params (D.syms false) i := by
    intro T i hT ⟨j1, j2, j3⟩
    by_cases hc : P.params.names = poolHeader + symsLen (D.syms true)
    · exact ⟨by omega, by omega, by omega⟩
    · rw [h2.resolve_left hc] at j3; simp only [symsLen] at j3; omega
  have tnn : ∀ (T : Tab16) i, T.names = poolHeader → inNames T (D.syms true) i → inNames P.tags (D.syms true) i := by
    intro T i hT ⟨j1, j2, j3⟩
    exact ⟨by omega, by omega, by omega⟩
  have ok0 : ∀ T1 T2, PoolOk { P with root := 0, tags := T1, params := T2 } := fun _ _ => ⟨hP.head, hP.al, hP.le, hP.lim, hP.map, hP.page⟩
  -- the stages
  have s0 : Keeps { P with root := 0 } { D.cleared with ready := D.ready } [] (fun _ _ => 0) (fun _ => 0) := by
    refine k.bare (ok0 _ _) rfl rfl (fun b => ?_) (fun b => ?_) (fun b i => ?_) (fun b i => ?_)
    · cases b
      · exact kp.frame (Nat.le_refl _) fun _ _ => rfl
      · exact kt.frame (Nat.le_refl _) fun _ _ => rfl
    · have := k.rdy b; cases b <;> exact this
    · cases b <;> exact id
    · cases b <;> exact id
  have s2 : Keeps { P with root := 0, tags := { P.tags with names := poolHeader, index := 0 } } { D.cleared with ready := fun b => !b && D.ready b } [] (fun _ _ => 0) (fun _ => 0) := by
    refine k.bare (ok0 _ _) rfl rfl (fun b => ?_) (fun b => ?_) (fun b i => ?_) (fun b i => ?_)
    · cases b
      · exact kp.frame (Nat.le_refl _) fun _ _ => rfl
      · exact tB _ (by show _ ≤ P.alloc; omega) fun _ _ => rfl
    · cases b
      · intro hr; exact k.rdy false (by simpa using hr)
      · intro hr; simp at hr
    · cases b
      · exact id
      · exact tnn _ i rfl
    · cases b
      · exact id
      · exact fun hx => absurd rfl hx.1
  have s3 : Keeps { P with root := 0, tags := { P.tags with names := poolHeader, index := 0 }, params := { P.params with names := poolHeader + symsLen (D.syms true) } } { D.cleared with ready := fun b => !b && D.ready b } [] (fun _ _ => 0) (fun _ => 0) := by
    refine k.bare (ok0 _ _) rfl rfl (fun b => ?_) (fun b => ?_) (fun b i => ?_) (fun b i => ?_)
    · cases b
      · exact pC _ rfl rfl
      · exact tB _ (by show _ ≤ P.alloc; omega) fun _ _ => rfl
    · cases b
      · intro hr; exact k.rdy false (by simpa using hr)
      · intro hr; simp at hr
    · cases b
      · exact pnn _ i rfl
      · exact tnn _ i rfl
    · cases b
      · exact id
      · exact fun hx => absurd rfl hx.1
  have s4 : ∀ (a : Nat) (m : Mem), PoolOk { P with root := 0, alloc := a } → poolHeader + symsLen (D.syms true) + symsLen (D.syms false) ≤ a → (∀ i, i < poolHeader + symsLen (D.syms true) + symsLen (D.syms false) → m i = P.mem i) →
      Keeps { P with root := 0, tags := { P.tags with names := poolHeader, index := 0 }, params := { P.params with names := poolHeader + symsLen (D.syms true), index := 0 }, alloc := a, mem := m }
        { D.cleared with ready := fun _ => false } [] (fun _ _ => 0) (fun _ => 0) := by
    intro a m ha hl hm
    refine k.bare (Q := { P with root := 0, tags := { P.tags with names := poolHeader, index := 0 }, params := { P.params with names := poolHeader + symsLen (D.syms true), index := 0 }, alloc := a, mem := m }) ⟨ha.head, ha.al, ha.le, ha.lim, ha.map, ha.page⟩ rfl rfl (fun b => ?_) (fun b hr => absurd hr Bool.false_ne_true) (fun b i => ?_) (fun b i => ?_)
    · cases b
      · exact pB _ hl hm
      · exact tB _ (by show _ ≤ a; omega) hm
    · cases b
      · exact pnn _ i rfl
      · exact tnn _ i rfl
    · cases b
      · exact fun hx => absurd rfl hx.1
      · exact fun hx => absurd rfl hx.1
  have okn : PoolOk { P with root := 0, alloc := poolHeader + symsLen (D.syms true) + symsLen (D.syms false) } :=
    ⟨by show poolHeader ≤ poolHeader + _ + _; omega, by show (poolHeader + _ + _) % 4 = 0; omega, by show poolHeader + _ + _ ≤ P.limit; omega, hP.lim, hP.map, hP.page⟩
  have okp : PoolOk { P with root := 0 } := ok0 P.tags P.params
  generalize hN : poolHeader + symsLen (D.syms true) + symsLen (D.syms false) = N at *
  have hwr := Pool.wr_eq (P := { P with root := 0, tags := { P.tags with names := poolHeader, index := 0 }, params := { P.params with names := poolHeader + symsLen (D.syms true), index := 0 }, alloc := N })
    (a := N) (bs := List.replicate (P.alloc - N) 0) (by rw [List.length_replicate]; show _ ≤ P.fileSize; omega) (N : Nat) rfl
  have hz : ∀ i, i < N → memPut P.mem N (List.replicate (P.alloc - N) 0) i = P.mem i := fun i hi => memPut_frame _ _ _ _ (Or.inl hi)
  have hE : Pool.emptyStores { P with root := 0 } (symsLen (D.syms true)) (symsLen (D.syms false)) = [.tab true { P.tags with names := poolHeader }, .tab true { P.tags with names := poolHeader, index := 0 },
      .tab false { P.params with names := poolHeader + symsLen (D.syms true) }, .tab false { P.params with names := poolHeader + symsLen (D.syms true), index := 0 }, .alloc N, .bytes (N : Nat) (List.replicate (P.alloc - N) 0)] := by
    unfold Pool.emptyStores
    simp only [hN]
  rw [hE]
  refine ⟨_, ?_, rfl, rfl, s4 N _ okn (Nat.le_refl _) hz, ?_⟩
  · show (Pool.wr _ _ _ >>= fun S => S.stores []) = _
    exact (congrArg (· >>= fun S => Pool.stores S []) hwr).trans rfl
  · intro C hk
    rcases killed_cons (by simp) rfl hk with rfl | hk
    · exact ⟨_, s0⟩
    rcases killed_cons (by simp) rfl hk with hC | hk
    · refine ⟨_, (show C = { P with root := 0 } from ?_) ▸ s0⟩
      rw [hC, htn]; rfl
    rcases killed_cons (by simp) rfl hk with hC | hk
    · exact ⟨_, by rw [hC]; exact s2⟩
    rcases killed_cons (by simp) rfl hk with hC | hk
    · exact ⟨_, by rw [hC]; exact s3⟩
    rcases killed_cons (by simp) rfl hk with hC | hk
    · exact ⟨_, by rw [hC]; exact s4 P.alloc P.mem okp hle fun _ _ => rfl⟩
    · have kk := s4 N P.mem okn (Nat.le_refl _) fun _ _ => rfl
      refine ⟨_, kk.got (killed_got kk.sees.ok (ss := [.bytes (N : Nat) (List.replicate (P.alloc - N) 0)]) ?_ hk)⟩
      intro s hs
      simp only [List.mem_cons, List.not_mem_nil, or_false] at hs
      subst hs
      exact Int.le_refl _

end BX
