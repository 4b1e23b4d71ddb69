import Verif.Lemmas.CopyOps
/-
Copying a tree of elements of a file into a writable document.
-/
namespace BX
open XBT Spec

/-! ### new elements -/

/-- asking for space succeeds while the mapping is large enough -/
theorem makeSpace_ok {E : Env} (hE : ∀ n, E.trunc n = true) {P : Pool} (hP : PoolOk P) (hsm : P.mmapSize < 2147483648) {n : Nat} (h : P.alloc + n + 4095 ≤ P.mmapSize) :
    ∃ Q, P.makeSpace E n = .ok (Q, true) ∧ Q.alloc = P.alloc ∧ P.limit ≤ Q.limit ∧ P.alloc + n ≤ Q.limit ∧ Q.mmapSize = P.mmapSize := by
  have hmax : INT_MAX = 2147483647 := rfl
  have hl := hP.lim
  unfold Pool.makeSpace
  rw [if_neg (by omega)]
  simp only
  rw [if_neg (by omega)]
  split
  · exact ⟨P, rfl, rfl, Nat.le_refl _, by omega, rfl⟩
  · rw [if_neg (by rw [hE]; simp)]
    exact ⟨_, rfl, rfl, by simp only; omega, by simp only; omega, rfl⟩

theorem makeNull_ok {E : Env} {P : Pool} (hP : PoolOk P) (hsm : P.mmapSize < 2147483648) {id : Int} (room : P.alloc + 40 ≤ P.limit) :
    ∃ Q o, P.make E id NULL 0 1 0 [] = .ok (Q, some o) ∧ Used P Q 40 := by
  have hl := hP.lim
  have hm := hP.map
  have hal := hP.al
  have hmax : INT_MAX = 2147483647 := rfl
  have hsz : size2 NULL (0 : Nat) = 0 := rfl
  have ha : P.allocGrow E NULL 24 = .ok ({ P with mem := memPut P.mem P.alloc (List.replicate (aa 24) 0), alloc := P.alloc + aa 24 }, some P.alloc) := by
    have h24 : aa 24 = 24 := rfl
    unfold Pool.allocGrow Pool.allocFor
    rw [if_neg (by decide), allocate_eq (by omega) (by omega) (by omega) (by omega) (by omega)]
    rfl
  unfold Pool.make Pool.newElement
  rw [hsz, if_neg (by omega)]
  simp only [Int.toNat_zero, Nat.add_zero]
  rw [ha]
  simp only [Out.ok_bind]
  rw [Pool.wr_eq (a := P.alloc + 7) (by simp; omega) _ (by omega), Out.ok_bind, Pool.wr_eq (a := P.alloc + 12) (by simp; omega) _ (by omega), Out.ok_bind,
    Pool.wr_eq (a := P.alloc + 8) (by simp; omega) _ (by omega), Out.ok_bind, Pool.wr_eq (a := P.alloc) (by simp; omega) _ (by omega), Out.ok_bind]
  rw [if_neg (by decide)]
  simp only [Out.ok_bind, Out.pure_eq]
  unfold Pool.initElem
  rw [Pool.wr_eq (a := P.alloc) (by simp [leN_length]; omega) _ (by omega), Out.ok_bind, Pool.wr_eq (a := P.alloc + 24 + 0) (by simp only [List.length_nil]; omega) _ (by omega)]
  refine ⟨_, _, rfl, ?_, Nat.le_refl _, rfl⟩
  simp only
  have h24 : aa 24 = 24 := rfl
  omega

/-- an element with a copied value -/
theorem tagData_ok {E : Env} (hE : ∀ n, E.trunc n = true) {maxSize : Nat} (h1 : 0x4000 ≤ maxSize) (h2 : maxSize < 2147483648) {flt : CStr → List UInt8} (hflt : ∀ s, (flt s).length = 4) {P : Pool} {D : Doc}
    (h : Sess E maxSize P D) {id : Int} (hid : Is16 id) {d v : Data} (hd : FromFile d) (ht : D.takesValue flt id d = some v) (room : P.alloc + d.bytes.length + 80 + 0x6000 ≤ P.mmapSize) :
    ∃ Q o k, P.tagData E flt id d = .ok (Q, some o) ∧ Sess E maxSize Q (D.plus k o true id v.type v.bytes) ∧ D.forest.at' (.loose k) = [] ∧ ¬ D.forest.Elem o ∧ DataGood v ∧ Used P Q (d.bytes.length + 80) ∧
      Q.alloc + 16000 ≤ Q.limit := by
  obtain ⟨els, V, fl, kp⟩ := sess_keeps h1 h2 h
  have hsm := kp.sees.small
  obtain ⟨P1, p1, p2, p3, p4, p5⟩ := makeSpace_ok hE kp.sees.ok hsm (n := 0x4000 + 8 + d.bytes.length) (by omega)
  have hs1 := Sess.space h p1
  obtain ⟨N, hN⟩ := sess_loose h
  have hk := hN N (Nat.le_refl _)
  obtain ⟨els1, V1, fl1, k1⟩ := sess_keeps h1 h2 hs1
  have hsm1 := k1.sees.small
  unfold Pool.tagData
  rw [p1]
  simp only [Out.ok_bind, Bool.true_eq_false, if_false]
  unfold Doc.takesValue at ht
  split at ht
  · next hn =>
    cases ht
    rw [if_pos hn]
    obtain ⟨P2, r1, r2, r3, r4, r5⟩ := makeSpace_ok hE k1.sees.ok hsm1 (n := 0x4000) (by omega)
    have hs2 := Sess.space hs1 r1
    obtain ⟨els2, V2, fl2, k2⟩ := sess_keeps h1 h2 hs2
    obtain ⟨Q, o, q1, q2⟩ := makeNull_ok (E := E) (id := id) k2.sees.ok k2.sees.small (by omega)
    obtain ⟨-, g2⟩ := make_spec k2.sees.ok q1
    obtain ⟨-, b1, -⟩ := g2 o rfl
    have hsd := Sess.made (b := true) (k := N) (size := 0) (t := NULL) (bs := []) hs2 hid rfl q1 hk
    have hz := (hd fun hz => by rw [hn] at hz; exact absurd hz (by decide))
    have hb : d.bytes = [] := by
      have := hz.1
      unfold Sized at this
      rw [hn, if_neg (by decide), if_neg (by decide), if_neg (by decide), if_neg (by decide), if_neg (by decide)] at this
      have : (d.bytes.length : Int) = 0 := this.2
      exact List.eq_nil_of_length_eq_zero (by omega)
    have hal := q2.alloc
    have hli := q2.limit
    refine ⟨Q, o, N, ?_, ?_, hk, fresh_elem k2 b1, sized_good hz.1 hz.2.2 hz.2.1, ⟨by omega, by omega, by rw [q2.map, r5, p5]⟩, by omega⟩
    · unfold Pool.plainTag
      rw [r1]
      exact q1
    · rw [hn, hb]; exact hsd
  · next hn =>
    rw [if_neg hn]
    simp only [Option.bind_eq_some_iff] at ht
    obtain ⟨t, hty, hv⟩ := ht
    have hst := typeOf_spec k1 hty
    obtain ⟨g1, g2, g3, g4⟩ := asType_spec hflt hd hv (by omega)
    obtain ⟨Q, o, q1, q2⟩ := makeData_ok (id := id) (t := t) (fl := 1) (bs := v.bytes) k1.sees.ok hsm1 (by omega)
    obtain ⟨-, hsp⟩ := makeData_spec k1.sees.ok q1
    have hsd := Sess.copied (b := true) (k := N) hs1 hid q1 hk
    have hal := q2.alloc
    have hli := q2.limit
    refine ⟨Q, o, N, ?_, by rw [g2]; exact hsd, hk, fresh_elem k1 (hsp o rfl).1, g1, ⟨by omega, by omega, by rw [q2.map, p5]⟩, by omega⟩
    unfold Pool.tagTyped
    rw [hst, Out.ok_bind]
    rcases g4 with ⟨e1, rfl⟩ | ⟨e1, e2, e3, w, e4, e5⟩
    · subst e1
      rw [if_pos rfl]
      exact q1
    · rw [if_neg (fun hc => e1 (by injection hc with hc; exact hc.symm)), if_pos e2]
      simp only
      rw [if_neg e3, e4]
      simp only
      rw [e5]
      exact q1

/-! ### adopting a copied element -/

theorem plus_at (D : Doc) (k o : Nat) (b : Bool) (id : Int) (t : XBT) (v : List UInt8) (q : Place) : (D.plus k o b id t v).forest.at' q = if q = .loose k then [o] else D.forest.at' q := rfl

theorem plus_elem {D : Doc} {k o : Nat} {b : Bool} {id : Int} {t : XBT} {v : List UInt8} (hk : D.forest.at' (.loose k) = []) {e : Nat} (he : D.forest.Elem e) : (D.plus k o b id t v).forest.Elem e := by
  obtain ⟨q, hq⟩ := he
  refine ⟨q, ?_⟩
  rw [plus_at, if_neg]
  · exact hq
  · rintro rfl; rw [hk] at hq; cases hq

theorem adopt_ok {E : Env} {maxSize : Nat} (h1 : 0x4000 ≤ maxSize) (h2 : maxSize < 2147483648) {P : Pool} {D D2 : Doc} {p o k : Nat} {id : Int} {t : XBT} {v : List UInt8} (hk : D.forest.at' (.loose k) = [])
    (ho : ¬ D.forest.Elem o) (hp : D.forest.Elem p) (hg : GrewBelow o (D.plus k o true id t v) D2) (h : Sess E maxSize P D2) :
    ∃ Q D3, P.add p (some (o : Int)) = .ok Q ∧ Sess E maxSize Q D3 ∧ Used P Q 0 ∧ GrewBelow p D D3 ∧ D3.forest.at' (.attrs p) = D.forest.at' (.attrs p) ∧
      D3.forest.at' (.kids p) = D.forest.at' (.kids p) ++ [o] ∧ Below p D2 D3 ∧ D3.forest.Elem o ∧ D3.type o = t ∧ D3.val o = v := by
  obtain ⟨els, V, fl, kp⟩ := sess_keeps h1 h2 h
  have hpo : p ≠ o := fun hc => ho (hc ▸ hp)
  have hlk : D2.forest.at' (.loose k) = [o] := by rw [hg.loose, plus_at, if_pos rfl]
  have hoE : (D.plus k o true id t v).forest.Elem o := ⟨.loose k, by rw [plus_at, if_pos rfl]; simp⟩
  obtain ⟨o1, o2, o3, o4, o5⟩ := hg.elem o hoE
  have htag : D2.forest.tag o = true := by rw [o2]; exact if_pos rfl
  have hhome : D2.forest.home p o = .kids p := by unfold Forest.home; rw [htag]; rfl
  have hp1 : D2.forest.Elem p := (hg.elem p (plus_elem hk hp)).1
  have hom : o ∈ D2.forest.at' (.loose k) := by rw [hlk]; simp
  obtain ⟨Q, hQ, hu⟩ := add_used kp hp1 hom
  have hst := Step.add (F := D2.forest) hp1 hom
  have hs := Sess.step h hst hQ
  rw [hhome, hlk, show fromElem o [o] = [o] by simp [fromElem]] at hs
  have at3 : ∀ q, ((D2.forest.put (.kids p) (D2.forest.at' (.kids p) ++ [o])).put (.loose k) []).at' q =
      if q = .loose k then [] else if q = .kids p then D2.forest.at' (.kids p) ++ [o] else D2.forest.at' q := fun q => rfl
  have elem3 : ∀ e, D2.forest.Elem e → ((D2.forest.put (.kids p) (D2.forest.at' (.kids p) ++ [o])).put (.loose k) []).Elem e := by
    rintro e ⟨q, hq⟩
    by_cases h1 : q = .loose k
    · subst h1
      rw [hlk] at hq
      refine ⟨.kids p, ?_⟩
      rw [at3, if_neg (by simp), if_pos rfl]
      simp at hq; simp [hq]
    · refine ⟨q, ?_⟩
      rw [at3, if_neg h1]
      split
      · next h2 => subst h2; simp [hq]
      · exact hq
  refine ⟨Q, _, hQ, hs, hu, ⟨fun q hq hne => ?_, fun j => ?_, fun e he => ?_, hg.root, hg.syms, hg.ready⟩, ?_, ?_, ⟨fun q hq hne => ?_, fun e he => ⟨elem3 e he, rfl, rfl, rfl⟩⟩, elem3 o o1, ?_, ?_⟩
  · have hqo : q ≠ o := fun hc => ho (hc ▸ hq)
    obtain ⟨a, b⟩ := hg.kids q (plus_elem hk hq) hqo
    constructor
    · show ((D2.forest.put _ _).put _ _).at' _ = _
      rw [at3, if_neg (by simp), if_neg (by simp [hne]), a, plus_at, if_neg (by simp)]
    · show ((D2.forest.put _ _).put _ _).at' _ = _
      rw [at3, if_neg (by simp), if_neg (by simp), b, plus_at, if_neg (by simp)]
  · show ((D2.forest.put _ _).put _ _).at' _ = _
    rw [at3]
    split
    · next hj => rw [hj, hk]
    · next hj => rw [if_neg (by simp), hg.loose, plus_at, if_neg hj]
  · have heo : e ≠ o := fun hc => ho (hc ▸ he)
    obtain ⟨a, b1, b2, b3, b4⟩ := hg.elem e (plus_elem hk he)
    exact ⟨elem3 e a, b1.trans (if_neg heo), b2.trans (if_neg heo), b3.trans (if_neg heo), b4.trans (if_neg heo)⟩
  · show ((D2.forest.put _ _).put _ _).at' _ = _
    rw [at3, if_neg (by simp), if_neg (by simp), (hg.kids p (plus_elem hk hp) hpo).2, plus_at, if_neg (by simp)]
  · show ((D2.forest.put _ _).put _ _).at' _ = _
    rw [at3, if_neg (by simp), if_pos rfl, (hg.kids p (plus_elem hk hp) hpo).1, plus_at, if_neg (by simp)]
  · constructor
    · show ((D2.forest.put _ _).put _ _).at' _ = _
      rw [at3, if_neg (by simp), if_neg (by simp [hne])]
    · show ((D2.forest.put _ _).put _ _).at' _ = _
      rw [at3, if_neg (by simp), if_neg (by simp)]
  · exact o4.trans (if_pos rfl)
  · exact o5.trans (if_pos rfl)

/-! ### the tree -/

theorem copyChecks_ok {P : Pool} {D : Doc} {els V fl} (k : Keeps P D els V fl) {f : Img} {x : Int} {p : Nat} (hp : D.forest.Elem p) (h1 : D.forest.at' (.kids p) = []) (h2 : D.forest.at' (.attrs p) = [])
    (hn : f.name x = .ok (D.id p)) : P.copyChecks f p x = .ok true := by
  have he := (k.lists.mem p).1 hp
  have hh1 := k.lists.head p he 16 (Or.inl rfl)
  have hh2 := k.lists.head p he 20 (Or.inr rfl)
  replace hh1 : V 16 p = (D.forest.at' (.kids p)).headD 0 := hh1
  replace hh2 : V 20 p = (D.forest.at' (.attrs p)).headD 0 := hh2
  rw [h1] at hh1
  rw [h2] at hh2
  have hok := k.sees.ok
  unfold Pool.copyChecks
  rw [k.sees.child he, Out.ok_bind]
  unfold Pool.eAttr
  rw [k.sees.get he (k := 20) (by unfold IsPtr; omega) ((p : Int) + 20) rfl, Out.ok_bind, (k.elem p he).eId (by have := hok.le; have := hok.lim; omega), Out.ok_bind, hn, Out.ok_bind, hh1, hh2]
  simp

theorem newborn {P : Pool} {D : Doc} {els V fl} (k : Keeps P D els V fl) {o : Nat} (ho : ¬ D.forest.Elem o) : D.forest.at' (.kids o) = [] ∧ D.forest.at' (.attrs o) = [] := by
  have hno : o ∉ els := fun hc => ho ((k.lists.mem o).2 hc)
  refine ⟨Classical.byContradiction fun hc => hno (k.lists.own o 16 hc), Classical.byContradiction fun hc => hno (k.lists.own o 20 hc)⟩

mutual
theorem copyAll_ok {E : Env} (hE : ∀ n, E.trunc n = true) {maxSize : Nat} (h1 : 0x4000 ≤ maxSize) (h2 : maxSize < 2147483648) {flt : CStr → List UInt8} (hflt : ∀ s, (flt s).length = 4) {f : Img} (hf : f.size < 2147483648) :
    ∀ (t : CTree) (t' : CTree) (x : Int) (p : Nat) (P : Pool) (D : Doc), Sess E maxSize P D → D.forest.Elem p → D.forest.at' (.kids p) = [] → D.forest.at' (.attrs p) = [] → D.id p = t.id →
      D.takes flt t = some t' → FileShows f x t → P.alloc + attrsRoom t.attrs ≤ P.limit → t.light → P.alloc + t.room + 0x6000 ≤ P.mmapSize →
      ∃ Q D', (∀ fuel, t.steps ≤ fuel → Pool.copyAll E flt f fuel p x P = .ok (Q, true)) ∧ Sess E maxSize Q D' ∧ GrewBelow p D D' ∧ HasTree D D' p t' ∧ Used P Q t.room
  | .mk id v as ks, t', x, p, P, D, hs, hp, hk0, ha0, hid, ht, hsh, hroom, hlight, hbig => by
    obtain ⟨els, V, fl, k⟩ := sess_keeps h1 h2 hs
    unfold FileShows at hsh
    obtain ⟨s1, s2, s3, s4, s5⟩ := hsh
    unfold Doc.takes at ht
    simp only [Option.bind_eq_some_iff, Option.map_eq_some_iff] at ht
    obtain ⟨as', has, ks', hks, rfl⟩ := ht
    unfold CTree.room at hbig ⊢
    unfold CTree.light at hlight
    have hchk := copyChecks_ok k (f := f) (x := x) hp hk0 ha0 (by rw [hid]; exact s1)
    obtain ⟨Q1, D1, l1, a1, a2, a3, a4, a5, a6, a7⟩ := copyAttrs_ok h1 h2 hflt hf as as' 0 P D hs hp has (fun j hj => by rw [Nat.zero_add]; exact s3 j hj) hroom
    have hal := a7.alloc
    have hmp := a7.map
    obtain ⟨Q, D2, l2, b1, b2, b3, b4, b5, b6, b7⟩ := copyKids_ok hE h1 h2 hflt hf ks ks' x 0 p Q1 D1 a2 (a3.elem p hp).1 (by rw [takesKids_congr a3.syms a3.ready]; exact hks) s5 hlight
      (by rw [hmp]; omega)
    refine ⟨Q, D2, ?_, b2, grew_trans a3 b3, ?_, a7.trans b7⟩
    · intro fuel hfuel
      unfold CTree.steps at hfuel
      obtain ⟨fuel', rfl⟩ : ∃ n, fuel = n + 1 := ⟨fuel - 1, by omega⟩
      unfold Pool.copyAll
      rw [hchk]
      simp only [Out.ok_bind, Bool.true_eq_false, if_false]
      rw [s2]
      simp only [Out.ok_bind, Int.toNat_natCast]
      rw [show (0 : Int) = ((0 : Nat) : Int) from rfl, a1]
      simp only [Out.ok_bind, Bool.true_eq_false, if_false]
      rw [s4]
      simp only [Out.ok_bind, Int.toNat_natCast]
      have b1' := b1 fuel' (by omega)
      simp only [Int.ofNat_zero, Int.natCast_zero] at b1' ⊢
      rw [b1']
      rfl
    · unfold HasTree
      refine ⟨?_, ?_, ?_⟩
      · rw [(b3.elem p (a3.elem p hp).1).2.2.1, (a3.elem p hp).2.2.1, hid]; rfl
      · rw [b4, a5, ha0, List.nil_append]
        exact attrsAre_mono (fun _ h => h) b3.below _ _ a6
      · rw [b5, a4, hk0, List.nil_append]
        exact hasKids_mono (D := D2) (p := p) (fun e he => (a3.elem e he).1) ⟨fun _ _ _ => ⟨rfl, rfl⟩, fun _ he => ⟨he, rfl, rfl, rfl⟩⟩ (a3.elem p hp).1 _ _ b6
theorem copyKids_ok {E : Env} (hE : ∀ n, E.trunc n = true) {maxSize : Nat} (h1 : 0x4000 ≤ maxSize) (h2 : maxSize < 2147483648) {flt : CStr → List UInt8} (hflt : ∀ s, (flt s).length = 4) {f : Img} (hf : f.size < 2147483648) :
    ∀ (ks : List CTree) (ks' : List CTree) (x : Int) (i p : Nat) (P : Pool) (D : Doc), Sess E maxSize P D → D.forest.Elem p → D.takesKids flt ks = some ks' → FileShowsKids f x i ks →
      lightKids ks → P.alloc + kidsRoom ks + 0x6000 ≤ P.mmapSize →
      ∃ Q D' l, (∀ fuel, kidsSteps ks ≤ fuel → Pool.copyKids E flt f fuel p x ks.length i P = .ok Q) ∧ Sess E maxSize Q D' ∧ GrewBelow p D D' ∧ D'.forest.at' (.attrs p) = D.forest.at' (.attrs p) ∧
        D'.forest.at' (.kids p) = D.forest.at' (.kids p) ++ l ∧ HasKids D D' l ks' ∧ Used P Q (kidsRoom ks)
  | [], ks', x, i, p, P, D, hs, hp, ht, _, _, _ => by
    unfold Doc.takesKids at ht
    cases ht
    refine ⟨P, D, [], ?_, hs, grew_refl p D, rfl, (List.append_nil _).symm, ?_, Nat.le_add_right _ _, Nat.le_refl _, rfl⟩
    · intro fuel hfuel
      unfold kidsSteps at hfuel
      obtain ⟨fuel', rfl⟩ : ∃ n, fuel = n + 1 := ⟨fuel - 1, by omega⟩
      simp only [List.length_nil]; unfold Pool.copyKids; rfl
    · unfold HasKids; trivial
  | c :: ks, ks', x, i, p, P, D, hs, hp, ht, hsh, hlight, hbig => by
    unfold Doc.takesKids at ht
    simp only [Option.bind_eq_some_iff, Option.map_eq_some_iff] at ht
    obtain ⟨v, hv, c', hc', ks'', hks, rfl⟩ := ht
    unfold FileShowsKids at hsh
    obtain ⟨⟨y, y1, y2, y3⟩, hsh⟩ := hsh
    unfold lightKids at hlight
    obtain ⟨li1, li2, li3⟩ := hlight
    unfold kidsRoom at hbig ⊢
    have hname : f.name y = .ok c.id := by cases c; unfold FileShows at y3; exact y3.1
    obtain ⟨els, V, fl, k⟩ := sess_keeps h1 h2 hs
    obtain ⟨Q1, o, n, q1, q2, q3, q4, q5, q6, q7⟩ := tagData_ok hE h1 h2 hflt hs (i16_is16 hname) (getData_from hf y2) hv (by omega)
    obtain ⟨nb1, nb2⟩ := newborn k q4
    have hal := q6.alloc
    have hmp := q6.map
    obtain ⟨Q2, D2, r1, r2, r3, r4, r5⟩ := copyAll_ok hE h1 h2 hflt hf c c' y o Q1 _ q2 ⟨.loose n, by rw [plus_at, if_pos rfl]; simp⟩ (by rw [plus_at, if_neg (by simp)]; exact nb1)
      (by rw [plus_at, if_neg (by simp)]; exact nb2) (if_pos rfl) ((takes_congr (D := D) (D' := D.plus n o true c.id v.type v.bytes) rfl rfl c).trans hc') y3 (by omega) li2 (by rw [hmp]; omega)
    obtain ⟨Q3, D3, w1, w2, w3, w4, w5, w6, w7, w8, w9, w10⟩ := adopt_ok h1 h2 q3 q4 hp r3 r2
    have hu := (q6.trans r5).trans w3
    have hal3 := hu.alloc
    have hmp3 := hu.map
    obtain ⟨Q, D', l, z1, z2, z3, z4, z5, z6, z7⟩ := copyKids_ok hE h1 h2 hflt hf ks ks'' x (i + 1) p Q3 D3 w2 (w4.elem p hp).1 (by rw [takesKids_congr w4.syms w4.ready]; exact hks) hsh li3
      (by rw [hmp3]; omega)
    refine ⟨Q, D', o :: l, ?_, z2, grew_trans w4 z3, z4.trans w5, by rw [z5, w6]; simp, ?_, (hu.trans z7).more (by omega)⟩
    · intro fuel hfuel
      unfold kidsSteps at hfuel
      obtain ⟨fuel', rfl⟩ : ∃ n, fuel = n + 1 := ⟨fuel - 1, by omega⟩
      show Pool.copyKids E flt f (fuel' + 1) p x (ks.length + 1) i P = _
      unfold Pool.copyKids
      rw [y1]
      simp only [Out.ok_bind]
      rw [y2, hname]
      simp only [Out.ok_bind]
      rw [q1]
      simp only [Out.ok_bind]
      rw [r1 fuel' (by omega)]
      simp only [Out.ok_bind]
      unfold Pool.addCopied
      rw [if_pos rfl, w1, Out.ok_bind, show (i : Int) + 1 = ((i + 1 : Nat) : Int) by push_cast; rfl]
      exact z1 fuel' (by omega)
    · unfold HasKids
      obtain ⟨e1, -, e2, e3, e4⟩ := z3.elem o w8
      have hpo : o ≠ p := fun hc => q4 (hc ▸ hp)
      have hoD1 : (D.plus n o true c.id v.type v.bytes).forest.Elem o := ⟨.loose n, by rw [plus_at, if_pos rfl]; simp⟩
      have t1 := hasTree_mono (D0' := D) (fun e he => plus_elem q3 he) w7 (plus_elem q3 hp) c' o (r3.elem o hoD1).1 hpo r4
      have t2 := hasTree_mono (D0' := D) (fun _ he => he) z3.below hp c' o w8 hpo t1
      refine ⟨q4, e1, by rw [e3, w9]; rfl, by rw [e4, w10]; rfl, q5, ?_, hasKids_mono (D := D') (p := p) (fun e he => (w4.elem e he).1) ⟨fun _ _ _ => ⟨rfl, rfl⟩, fun _ he => ⟨he, rfl, rfl, rfl⟩⟩ (w4.elem p hp).1 _ _ z6⟩
      cases c'
      exact t2
end

end BX
