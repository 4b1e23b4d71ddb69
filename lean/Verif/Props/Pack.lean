import Verif.Lemmas.PackRead
import Verif.Props.Room
/-
Properties C33 (a packed document reads as the source document, shared references lead back) and C34 (equal parts are stored once,
packing does not make a document longer).
-/
namespace BX
open XBT Spec

/-! ### the items of the source -/

mutual
theorem tree_visits {c : Ctx} {f : Img} : ∀ (e : Elem) (t : IT), At f.mem t → t.stop ≤ f.size → Fits c f.mem e t → Visits f e t.x (t.nodes.map fun k => (k.x : Int))
  | .mk name value params children, t, h, hs, hf => by
    unfold Fits at hf
    have tl := h.len_ge
    have to := h.own_le
    have hts : t.stop = t.x + t.len := rfl
    have h1 : f.paramcount t.x = .ok (t.pc : Int) := f.i16_ok h.pcHas.2 (by omega) (by have := h.pcHas.1; omega) _ (by omega)
    have h2 : f.childcount t.x = .ok (t.kids.length : Int) := f.i32_ok h.ccHas (by omega) (by unfold isI32 INT_MIN INT_MAX; omega) _ (by omega)
    have h3 : f.childrenAt t.x = .ok ((t.x + 12 + 8 * t.pc : Nat) : Int) := by
      unfold Img.childrenAt
      rw [h1]
      simp only [Out.ok_bind, Out.pure_eq]
      congr 1
    have q := tree_visitsAll children t h hs t.kids hf.2 0 (by simp) h2 h3
    unfold Visits
    refine ⟨_, ?_, q⟩
    obtain ⟨x, l, p, ks⟩ := t
    rw [show (IT.mk x l p ks).nodes = IT.mk x l p ks :: nodesL ks by rw [IT.nodes], List.map_cons]
    rfl
theorem tree_visitsAll {c : Ctx} {f : Img} : ∀ (es : List Elem) (n : IT), At f.mem n → n.stop ≤ f.size → ∀ (ks : List IT), FitsAll c f.mem es ks → ∀ (i : Nat),
    n.kids.drop i = ks → f.childcount n.x = .ok (n.kids.length : Int) → f.childrenAt n.x = .ok ((n.x + 12 + 8 * n.pc : Nat) : Int) →
    VisitsAll f es n.x i ((nodesL ks).map fun k => (k.x : Int))
  | [], n, h, hs, [], hf, i, hd, h2, h3 => by unfold VisitsAll nodesL; rfl
  | [], n, h, hs, _ :: _, hf, i, hd, h2, h3 => by unfold FitsAll at hf; exact hf.elim
  | _ :: _, n, h, hs, [], hf, i, hd, h2, h3 => by unfold FitsAll at hf; exact hf.elim
  | e :: es, n, h, hs, k :: ks, hf, i, hd, h2, h3 => by
    unfold FitsAll at hf
    have hi : i < n.kids.length := by
      have := congrArg List.length hd
      rw [List.length_drop, List.length_cons] at this
      omega
    have hk : n.kids[i] = k := by
      have := List.drop_eq_getElem_cons hi
      rw [hd] at this
      injection this with a b
      exact a.symm
    have hd' : n.kids.drop (i + 1) = ks := by
      have := List.drop_eq_getElem_cons hi
      rw [hd] at this
      injection this with a b
      exact b.symm
    have no := h.own_le
    have nl := h.len_ge
    have hns : n.stop = n.x + n.len := rfl
    obtain ⟨p1, p2, p3, p4⟩ := h.kid i hi
    rw [hk] at p1 p2 p3 p4
    have kl := p2.len_ge
    have hks : k.stop = k.x + k.len := rfl
    have hget : f.getChildByIndex n.x i = .ok (some (k.x : Int)) := by
      unfold Img.getChildByIndex
      rw [h2]
      simp only [Out.ok_bind]
      rw [if_neg (by omega), h3]
      simp only [Out.ok_bind]
      rw [f.i32_ok p1 (by omega) (by unfold isI32 INT_MIN INT_MAX; omega) _ (by omega)]
      simp only [Out.ok_bind, Out.pure_eq]
      congr 2
      omega
    unfold VisitsAll nodesL
    exact ⟨_, _, _, hget, tree_visits e k p2 (by omega) hf.1, tree_visitsAll es n h hs ks hf.2 (i + 1) hd' h2 h3, by rw [List.map_append]⟩
end

mutual
theorem Fits.count {c : Ctx} {m : Mem} : ∀ (e : Elem) (t : IT), Fits c m e t → t.nodes.length = e.count
  | .mk name value params children, .mk x l p ks, h => by
    unfold Fits at h
    have := FitsAll.count children ks h.2
    rw [show (IT.mk x l p ks).nodes = IT.mk x l p ks :: nodesL ks by rw [IT.nodes], List.length_cons, this, Elem.count]
    omega
theorem FitsAll.count {c : Ctx} {m : Mem} : ∀ (es : List Elem) (ks : List IT), FitsAll c m es ks → (nodesL ks).length = countL es
  | [], [], _ => by unfold nodesL countL; rfl
  | e :: es, k :: ks, h => by
    unfold FitsAll at h
    unfold nodesL countL
    rw [List.length_append, Fits.count e k h.1, FitsAll.count es ks h.2]
  | [], _ :: _, h => by unfold FitsAll at h; exact h.elim
  | _ :: _, [], h => by unfold FitsAll at h; exact h.elim
end

theorem kid_item {f : Img} {n : IT} (h : At f.mem n) (hs : n.stop ≤ f.size) (hi : Item f n.x) (i : Nat) (hk : i < n.kids.length) : Item f n.kids[i].x := by
  have no := h.own_le
  have nl := h.len_ge
  have hns : n.stop = n.x + n.len := rfl
  obtain ⟨p1, p2, p3, p4⟩ := h.kid i hk
  have kl := p2.len_ge
  have hks : n.kids[i].stop = n.kids[i].x + n.kids[i].len := rfl
  refine .child (i := i) hi ?_
  unfold Img.getChildByIndex
  rw [show f.childcount n.x = .ok (n.kids.length : Int) from f.i32_ok h.ccHas (by omega) (by unfold isI32 INT_MIN INT_MAX; omega) _ (by omega)]
  simp only [Out.ok_bind]
  rw [if_neg (by omega)]
  unfold Img.childrenAt
  rw [show f.paramcount n.x = .ok (n.pc : Int) from f.i16_ok h.pcHas.2 (by omega) (by have := h.pcHas.1; omega) _ (by omega)]
  simp only [Out.ok_bind, Out.pure_eq]
  rw [f.i32_ok p1 (by omega) (by unfold isI32 INT_MIN INT_MAX; omega) _ (by omega)]
  simp only [Out.ok_bind]
  congr 2
  omega

theorem nodes_item {f : Img} : ∀ (k : Nat) (t : IT), t.len = k → At f.mem t → t.stop ≤ f.size → Item f t.x → ∀ n ∈ t.nodes, Item f n.x := by
  intro k
  induction k using Nat.strongRecOn with
  | _ k ih =>
    intro t hk h hs hi n hn
    rcases mem_nodes.1 hn with rfl | ⟨c, hc, hn⟩
    · exact hi
    · obtain ⟨i, hi', rfl⟩ := List.getElem_of_mem hc
      obtain ⟨-, p2, p3, p4⟩ := h.kid i hi'
      have := h.own_le
      have hts : t.stop = t.x + t.len := rfl
      have hks : t.kids[i].stop = t.kids[i].x + t.kids[i].len := rfl
      exact ih _ (by omega) _ rfl p2 (by omega) (kid_item h hs hi i hi') n hn

/-! ### making a packed file -/

/-- everything known about a packed file: `s` is the file without packing -/
theorem makePacked_facts (H : List UInt8 → List UInt8) (flt : CStr → List UInt8) (hflt : ∀ s, (flt s).length = 4) (filename : BStr) (hfn : NoNul filename) (mtime : Int)
    (filesize : Nat) (hsz : 1024 + filesize * 4 < 2147483648) (m0 d0 : Mem) (e : Elem) (s : Img) (h : makeXb flt filename mtime filesize m0 e = .ok s)
    (hroom : s.size < 1024 + filesize * 4) (hnames : NamesIn NoNul NoNul e) (htags : AtMost 32768 (tagOps e)) (hpars : AtMost 32768 (paramOps e))
    (hok : TreeOk (docAttrType e) e) (hH : NoCollision H s) :
    ∃ (g : Img) (T t : IT) (loc : Nat → Nat) (len' : Nat) (c : Ctx) (r r' : Rd), makePacked H flt filename mtime filesize m0 d0 e = .ok g ∧
      c.flt = flt ∧ (∀ fuel, s.initialize (fuel + 1) = .ok r) ∧ r.root = some (t.x : Int) ∧
      (∀ fuel, g.initialize (fuel + 1) = .ok r') ∧ r'.root = some (loc t.x : Int) ∧
      At s.mem T ∧ T.x = 0 ∧ T.stop ≤ s.size ∧ t ∈ T.nodes ∧ Fits c s.mem e t ∧ PackedAs s.mem T g.mem len' loc ∧ g.size = aa len' ∧ s.size = aa T.len ∧
      NamesIn (TagOk g r' c) (ParOk g r' c) e ∧ NamesIn (fun _ => True) (fun a => docAttrType e a = c.ptype a) e ∧
      (∀ n ∈ T.nodes, ∀ n' ∈ t.nodes, n.bytes s.mem = n'.bytes s.mem → t.x ≤ n.x) := by
  unfold makeXb makeXbWith at h
  obtain ⟨⟨m', len⟩, hfd, h⟩ := Out.bind_eq_ok h
  simp only [Out.pure_eq, Out.ok.injEq] at h
  subst h
  simp only at hroom
  obtain ⟨hn1, hn2⟩ := ops_of_namesIn _ _ e hnames
  have hge := aa_ge len
  have hpt : NamesIn (fun _ => True) (fun s => Ctx.ptype ⟨regAll (tagOps e), regAll (paramOps e), flt, 1024 + filesize * 4⟩ s = docAttrType e s) e := by
    apply namesIn_of_ops
    · intro _ _; trivial
    · intro op hop
      exact ptype_eq hn2 rfl (hn2 op hop) ((C25_members _ hn2 hpars _).mpr ⟨op, hop, rfl⟩)
  obtain ⟨x1, s1, x2, s2, x3, hw⟩ := fillData_spec (c := ⟨regAll (tagOps e), regAll (paramOps e), flt, 1024 + filesize * 4⟩) hflt hsz hfd (TreeOk.congr e hpt hok) (by simp only; omega) ⟨m', aa len⟩
    (by simp only; omega) hge (fun _ _ => rfl)
  have hgt := regAll_good _ hn1
  have hgp := regAll_good _ hn2
  obtain ⟨t, t1, t2, t3, t4, t5⟩ := hw.tree
  have hT := hw.toFront.treeAt t1 t2 t4
  have k1 := fun op hop => find_getSymbol hw.tab1 hgt (hn1 op hop) ((C25_members _ hn1 htags _).mpr ⟨op, hop, rfl⟩)
  have hid : NamesIn (TagId ⟨regAll (tagOps e), regAll (paramOps e), flt, 1024 + filesize * 4⟩) (fun _ => True) e := by
    apply namesIn_of_ops
    · intro op hop
      refine ⟨?_, (k1 op hop).1.2⟩
      unfold SymTab.find
      simp only
      split
      · exact .inr rfl
      · split
        · exact .inl (by omega)
        · exact .inl (by omega)
    · intro _ _; trivial
  have hTl : (fileTree len x1 x2 x3 t).len = len := rfl
  have hTx : (fileTree len x1 x2 x3 t).x = 0 := rfl
  have hTs : (fileTree len x1 x2 x3 t).stop = len := Nat.zero_add _
  have hTn : (fileTree len x1 x2 x3 t).nodes.length = 4 + e.count := by
    rw [fileTree_nodes]
    simp only [List.length_cons, t3]
    omega
  have htT : t ∈ (fileTree len x1 x2 x3 t).nodes := by rw [fileTree_nodes]; simp [t.self_mem]
  have hfirst := hw.toFront.first t4 t5 hid
  generalize hTT : fileTree len x1 x2 x3 t = T at *
  have hitem : ∀ n ∈ T.nodes, Item ⟨m', aa len⟩ n.x :=
    nodes_item _ T rfl hT (by simp only; omega) (by rw [hTx]; exact .root)
  have hbytes : ∀ n ∈ T.nodes, (⟨m', aa len⟩ : Img).nodeBytes n.x = .ok (n.bytes m') := by
    intro n hn
    obtain ⟨a, -, b, -⟩ := At.inside T hT n hn
    exact nodeBytes_spec a (by omega)
  obtain ⟨M, len', loc, e1, hp⟩ := pack_spec H (d0 := d0) hT hTx (limit := 1024 + filesize * 4) (total := 4 + e.count) (by omega) hTn (by rw [← hTT]; exact hw.toFront.named t5 hid)
    (fun n hn n' hn' he => hH _ _ _ _ (hitem n hn) (hitem n' hn') (hbytes n hn) (hbytes n' hn') he)
  rw [hTs] at e1
  have hle := hp.le
  have hgs : aa len' < 2147483648 := by
    have : aa len' ≤ aa len := by unfold aa; omega
    omega
  obtain ⟨plen, hfr⟩ := hw.toFront.packed t1 t2 t4 t5 hid (by rw [hTT]; exact hp) (g := ⟨M, aa len'⟩) hgs (aa_ge len') rfl
  refine ⟨⟨M, aa len'⟩, T, t, loc, len', ⟨regAll (tagOps e), regAll (paramOps e), flt, 1024 + filesize * 4⟩, _, _, ?_, rfl, hw.toFront.initialize hfn hgt hgp, ?_,
    hfr.initialize hfn hgt hgp, rfl, hT, hTx, by simp only; omega, htT, t5, hp, rfl, by rw [hTl], ?_, NamesIn.mono (fun _ h => h) (fun s hs => hs.symm) e hpt, hfirst⟩
  · unfold makePacked
    simp only
    rw [hfd]
    simp only [Out.ok_bind]
    rw [e1]
    rfl
  · rw [t1]
  · exact namesIn_of_ops _ _ e (fun op hop => find_getSymbol hfr.tab1 hgt (hn1 op hop) ((C25_members _ hn1 htags _).mpr ⟨op, hop, rfl⟩))
      (fun op hop => find_getSymbol hfr.tab2 hgp (hn2 op hop) ((C25_members _ hn2 hpars _).mpr ⟨op, hop, rfl⟩))

theorem map_backwards {m0 : Mem} {T : IT} {M : Mem} {len : Nat} {loc : Nat → Nat} (hT : At m0 T) (hp : PackedAs m0 T M len loc) {t : IT} (ht : t ∈ T.nodes)
    (hfirst : ∀ n ∈ T.nodes, ∀ n' ∈ t.nodes, n.bytes m0 = n'.bytes m0 → t.x ≤ n.x) : Backwards (t.nodes.map fun k => (loc k.x : Int)) := by
  intro k hk
  rw [List.length_map] at hk
  have at' := (At.inside T hT t ht).1
  have hnd := nodes_nodup t at'
  have hkm : t.nodes[k] ∈ T.nodes := nodes_trans hT ht (List.getElem_mem hk)
  by_cases hself : ∀ n ∈ T.nodes, n.bytes m0 = t.nodes[k].bytes m0 → t.nodes[k].x ≤ n.x
  · refine .inl (fun j hj => ?_)
    have hjm : t.nodes[j] ∈ T.nodes := nodes_trans hT ht (List.getElem_mem (by omega))
    have hlt := (List.pairwise_iff_getElem.1 hnd) j k (by omega) hk hj
    have := hp.order _ hjm _ hkm hlt hself
    have := (At.inside T hT _ hjm).1.own_le
    rw [List.getElem_map, List.getElem_map]
    omega
  · refine .inr ?_
    have : ∃ n ∈ T.nodes, n.bytes m0 = t.nodes[k].bytes m0 ∧ n.x < t.nodes[k].x := by
      refine Classical.byContradiction (fun hc => hself (fun n hn hb => ?_))
      exact Nat.le_of_not_lt (fun hlt => hc ⟨n, hn, hb, hlt⟩)
    obtain ⟨n, n1, n2, n3⟩ := this
    have hx := hfirst n n1 _ (List.getElem_mem hk) n2
    have hnt : n ∈ t.nodes := by
      rcases At.laminar T hT t ht n n1 hx with h | h
      · exact h
      · have := (At.inside t at' _ (List.getElem_mem hk)).2.2.1
        have := (At.inside t at' _ (List.getElem_mem hk)).1.len_ge
        unfold IT.stop at *
        omega
    obtain ⟨j, hj, hje⟩ := List.getElem_of_mem hnt
    have hjk : j < k := by
      rcases Nat.lt_trichotomy j k with h | h | h
      · exact h
      · subst h; rw [hje] at n3; omega
      · have := (List.pairwise_iff_getElem.1 hnd) k j hk hj h
        rw [hje] at this; omega
    refine ⟨j, hjk, ?_⟩
    rw [List.getElem_map, List.getElem_map, hje]
    have := (hp.share n n1 _ hkm).2 n2
    omega

/-! ### C33 -/

/-- C33: a document that can be stored (`C28_document_partial`) and has no element value of a type kept at multiples of eight can be
packed, whatever the buffers contained; the packed file is accepted by the reader, and, with shared items read wherever they are
referred to, its root element reads as the document. Walking the tree in document order one meets items placed one after the other
and, where an item is shared, one that was met before. -/
theorem C33_packed_partial (H : List UInt8 → List UInt8) (flt : CStr → List UInt8) (hflt : ∀ s, (flt s).length = 4) (filename : BStr) (hfn : NoNul filename) (mtime : Int)
    (filesize : Nat) (hsz : 1024 + filesize * 4 < 2147483648) (m0 d0 : Mem) (e : Elem) (s : Img) (h : makeXb flt filename mtime filesize m0 e = .ok s)
    (hroom : s.size < 1024 + filesize * 4) (hnames : NamesIn NoNul NoNul e) (htags : AtMost 32768 (tagOps e)) (hpars : AtMost 32768 (paramOps e))
    (hok : TreeOk (docAttrType e) e) (hnar : Narrow flt e) (hH : NoCollision H s) :
    ∃ g r x, makePacked H flt filename mtime filesize m0 d0 e = .ok g ∧ (∀ fuel, g.initialize (fuel + 1) = .ok r) ∧ r.root = some x ∧
      Reads flt (docAttrType e) g r e x ∧ ∃ l, Visits g e x l ∧ Backwards l := by
  obtain ⟨g, T, t, loc, len', c, r, r', a1, rfl, a3, a4, a5, a6, a7, a8, a9, a10, a11, a12, a13, a14, a15, a16, a17⟩ :=
    makePacked_facts H flt hflt filename hfn mtime filesize hsz m0 d0 e s h hroom hnames htags hpars hok hH
  have hle := a12.le
  have hTl := a7.len_ge
  have hg : g.size < 2147483648 := by
    have : aa len' ≤ aa T.len := by unfold aa; omega
    omega
  obtain ⟨q1, q2⟩ := packed_reads (c := c) a7 a12 hg (by rw [a13]; exact aa_ge _) rfl e t a10 a11 hnar (At.inside T a7 t a10).1.pcHas.1
  exact ⟨g, r', _, a1, a5, a6, Reads.congr e _ a16 (q1 r' a15), _, q2, map_backwards a7 a12 a10 a17⟩

/-! ### C34 -/

/-- C34: two elements whose items in the unpacked file have the same bytes are one item in the packed file, others are not; the
packed file is not longer than the unpacked one. -/
theorem C34_stored_once_partial (H : List UInt8 → List UInt8) (flt : CStr → List UInt8) (hflt : ∀ s, (flt s).length = 4) (filename : BStr) (hfn : NoNul filename) (mtime : Int)
    (filesize : Nat) (hsz : 1024 + filesize * 4 < 2147483648) (m0 d0 : Mem) (e : Elem) (s : Img) (h : makeXb flt filename mtime filesize m0 e = .ok s)
    (hroom : s.size < 1024 + filesize * 4) (hnames : NamesIn NoNul NoNul e) (htags : AtMost 32768 (tagOps e)) (hpars : AtMost 32768 (paramOps e))
    (hok : TreeOk (docAttrType e) e) (hnar : Narrow flt e) (hH : NoCollision H s) :
    ∃ g r x r' x' l l', makePacked H flt filename mtime filesize m0 d0 e = .ok g ∧ g.size ≤ s.size ∧
      (∀ fuel, s.initialize (fuel + 1) = .ok r) ∧ r.root = some x ∧ Visits s e x l ∧
      (∀ fuel, g.initialize (fuel + 1) = .ok r') ∧ r'.root = some x' ∧ Visits g e x' l' ∧
      l.length = e.count ∧ l'.length = e.count ∧
      ∀ (i j : Nat) (a b a' b' : Int), l[i]? = some a → l[j]? = some b → l'[i]? = some a' → l'[j]? = some b' → (a' = b' ↔ s.nodeBytes a = s.nodeBytes b) := by
  obtain ⟨g, T, t, loc, len', c, r, r', a1, rfl, a3, a4, a5, a6, a7, a8, a9, a10, a11, a12, a13, a14, a15, a16, a17⟩ :=
    makePacked_facts H flt hflt filename hfn mtime filesize hsz m0 d0 e s h hroom hnames htags hpars hok hH
  have hle := a12.le
  have hTl := a7.len_ge
  have hgs : aa len' ≤ aa T.len := by unfold aa; omega
  have hts := (At.inside T a7 t a10).2.2.1
  obtain ⟨q1, q2⟩ := packed_reads (c := c) a7 a12 (by omega) (by rw [a13]; exact aa_ge _) rfl e t a10 a11 hnar (At.inside T a7 t a10).1.pcHas.1
  refine ⟨g, r, _, r', _, _, _, a1, by omega, a3, a4, tree_visits e t (At.inside T a7 t a10).1 (by omega) a11, a5, a6, q2, ?_, ?_, ?_⟩
  · rw [List.length_map]; exact Fits.count e t a11
  · rw [List.length_map]; exact Fits.count e t a11
  · intro i j a b a' b' h1 h2 h3 h4
    rw [List.getElem?_map, Option.map_eq_some_iff] at h1 h2 h3 h4
    obtain ⟨n, n1, rfl⟩ := h1
    obtain ⟨k, k1, rfl⟩ := h2
    obtain ⟨n', n2, rfl⟩ := h3
    obtain ⟨k', k2, rfl⟩ := h4
    rw [n1] at n2
    rw [k1] at k2
    cases n2
    cases k2
    have hn := nodes_trans a7 a10 (List.mem_of_getElem? n1)
    have hk := nodes_trans a7 a10 (List.mem_of_getElem? k1)
    have hnI := At.inside T a7 _ hn
    have hkI := At.inside T a7 _ hk
    rw [show s.nodeBytes n.x = .ok (n.bytes s.mem) from nodeBytes_spec hnI.1 (by omega), show s.nodeBytes k.x = .ok (k.bytes s.mem) from nodeBytes_spec hkI.1 (by omega)]
    have := a12.share _ hn _ hk
    rw [Out.ok.injEq, ← this]
    omega

/-! ### The hypotheses are met -/

/-- a set of addresses containing the root and the children of its members contains all items -/
theorem item_mem {f : Img} {l : List Int} (h0 : (0 : Int) ∈ l)
    (hl : ∀ x ∈ l, ∃ n : Nat, f.childcount x = .ok (n : Int) ∧ ∀ i, i < n → ∀ y, f.getChildByIndex x i = .ok (some y) → y ∈ l) : ∀ x, Item f x → x ∈ l := by
  intro x hx
  induction hx with
  | root => exact h0
  | @child x y i _ hy ih =>
    obtain ⟨n, h1, h2⟩ := hl x ih
    by_cases hi : i < n
    · exact h2 i hi y hy
    · unfold Img.getChildByIndex at hy
      rw [h1] at hy
      simp only [Out.ok_bind] at hy
      rw [if_pos (by omega)] at hy
      simp only [Out.pure_eq, Out.ok.injEq] at hy
      cases hy

/-- no collision: it is enough to compare the items of such a set -/
def noCollisionB (H : List UInt8 → List UInt8) (f : Img) (l : List Int) : Bool :=
  l.all (fun x => l.all fun y => match f.nodeBytes x, f.nodeBytes y with
    | .ok a, .ok b => hash192 (H a) != hash192 (H b) || a == b
    | _, _ => true) &&
  l.all (fun x => match f.childcount x with
    | .ok n => decide (0 ≤ n) && (List.range n.toNat).all fun i => match f.getChildByIndex x i with
      | .ok (some y) => l.contains y
      | _ => true
    | _ => false) && l.contains 0

theorem noCollision_of {H : List UInt8 → List UInt8} {f : Img} {l : List Int} (h : noCollisionB H f l = true) : NoCollision H f := by
  unfold noCollisionB at h
  simp only [Bool.and_eq_true, List.all_eq_true, List.contains_iff_mem] at h
  obtain ⟨⟨h1, h2⟩, h3⟩ := h
  have hmem : ∀ x, Item f x → x ∈ l := by
    refine item_mem h3 fun x hx => ?_
    have := h2 x hx
    split at this
    · rename_i n hn
      simp only [Bool.and_eq_true, decide_eq_true_eq, List.all_eq_true, List.mem_range] at this
      refine ⟨n.toNat, by rw [hn, Int.toNat_of_nonneg this.1], fun i hi y hy => ?_⟩
      have h' := this.2 i hi
      rw [hy] at h'
      simpa using h'
    · cases this
  intro x y bx b hx hy e1 e2 hh
  have := h1 x (hmem x hx) y (hmem y hy)
  rw [e1, e2] at this
  simp only [hh, bne_self_eq_false, Bool.false_or, beq_iff_eq] at this
  exact this

/-- an element that occurs twice -/
def exTwice : Elem := .mk (b8 "item") (.text "desk lamp".toList) [(b8 "id", .text "18".toList)] [.mk (b8 "new") .none [] []]
/-- a document with a repeated element -/
def exShared : Elem := .mk (b8 "order") (.text "total: 12".toList) [(b8 "id", .text "17".toList)] [exTwice, .mk (b8 "x") .none [] [], exTwice]

/-- the document converted without packing -/
def exShared_s : Img := match makeXb (fun _ => [0,0,0,0]) (b8 "f") 0 100 (fun _ => 0) exShared with | .ok s => s | _ => ⟨fun _ => 0, 0⟩

/-- the hypotheses of C33 and C34 are met by a document with repeated elements and the hash the code uses, and it does get shorter -/
theorem exShared_ok : makeXb (fun _ => [0,0,0,0]) (b8 "f") 0 100 (fun _ => 0) exShared = .ok exShared_s ∧ exShared_s.size < 1024 + 100 * 4 ∧
    NamesIn NoNul NoNul exShared ∧ AtMost 32768 (tagOps exShared) ∧ AtMost 32768 (paramOps exShared) ∧ TreeOk (docAttrType exShared) exShared ∧
    Narrow (fun _ => [0,0,0,0]) exShared ∧ NoCollision sha1Hash exShared_s := by
  have hs : makeXb (fun _ => [0,0,0,0]) (b8 "f") 0 100 (fun _ => 0) exShared = .ok exShared_s := by
    have : (match makeXb (fun _ => [0,0,0,0]) (b8 "f") 0 100 (fun _ => 0) exShared with | .ok _ => true | _ => false) = true := by decide +kernel
    unfold exShared_s
    revert this
    split
    · intro _; assumption
    · intro h; cases h
  refine ⟨hs, by decide +kernel, ?_, atMost_length _ _ (by decide +kernel), atMost_length _ _ (by decide +kernel), ?_, ?_, ?_⟩
  · simp only [exShared, exTwice, NamesIn, NamesInAll]
    decide +kernel
  · simp only [exShared, exTwice, TreeOk, TreeOkAll]
    decide +kernel
  · simp only [exShared, exTwice, Narrow, NarrowAll]
    refine ⟨?_, ⟨?_, ⟨?_, ?_⟩, ?_⟩, ⟨?_, ?_⟩, ⟨?_, ⟨?_, ?_⟩, ?_⟩, ?_⟩ <;> try trivial
    all_goals (intro d hd; have hd := Option.some.inj (hd : some _ = some d); subst hd; decide +kernel)
  · exact noCollision_of (l := [0, 80, 156, 200, 220, 264, 316, 332, 300, 368]) (by decide +kernel)

/-- C28 and C29 of this document: it can be opened, its root reads as the document and is laid out, and the second item of it begins behind the first one -/
example : ∃ r x, exShared_s.initialize 1 = .ok r ∧ r.root = some x ∧ Reads (fun _ => [0,0,0,0]) (docAttrType exShared) exShared_s r exShared x ∧ Laid exShared_s exShared x ∧
    ∃ y len z, exShared_s.getChildByIndex x 0 = .ok (some y) ∧ exShared_s.length y = .ok len ∧ exShared_s.getChildByIndex x 2 = .ok (some z) ∧ y + len ≤ z := by
  obtain ⟨h1, h2, h3, h4, h5, h6, -⟩ := exShared_ok
  obtain ⟨r, x, r1, r2, r3, r4⟩ := C28_document_partial (fun _ => [0,0,0,0]) (fun _ => rfl) (b8 "f") (by decide) 0 100 (by decide) (fun _ => 0) exShared exShared_s h1 h2 h3 h4 h5 h6 0
  obtain ⟨-, _, -, -, -, l5⟩ := C29_laid _ _ _ r4
  exact ⟨r, x, r1, r2, r3, r4, l5 0 2 (by decide) (by decide)⟩

/-- packing the document of the example -/
example : (match makePacked sha1Hash (fun _ => [0,0,0,0]) (b8 "f") 0 100 (fun _ => 0) (fun _ => 0) exShared with | .ok g => g.size | _ => 0) < exShared_s.size := by
  decide +kernel

/-! ### C33 and C34 in general are false -/

/-- a document packed, opened, and one answer of the reader about its root element; the hash is the code's SHA-1, `m0` the content of
the fresh buffer -/
def packedRoot {α : Type} (m0 : Mem) (e : Elem) (q : Img → Rd → Int → Out α) : Out α := do
  let f ← makePacked sha1Hash (fun _ => [0,0,0,0]) (b8 "f") 0 100 m0 (fun _ => 0) e
  let r ← f.initialize 1
  match r.root with
  | none => .fail
  | some x => q f r x

/-- the `i`-th child -/
def kidOf (i : Nat) (f : Img) (x : Int) : Out Int := do
  match ← f.getChildByIndex x i with
  | some y => return y
  | none => .fail

/-- C33 fails for `<a><b>x y</b><b>x y</b><c>…</c></a>` with a 64-bit value in `c`: without packing it can be read; leaving out the second
`b` (20 bytes) moves it from a multiple of eight, and the reader looks for it in a wrong place, here beyond the end of the file. -/
theorem C33_int64_false :
    let b := Elem.mk (b8 "b") (.text "x y".toList) [] []
    let e := Elem.mk (b8 "a") .none [] [b, b, .mk (b8 "c") (.bin INT64 [1,2,3,4,5,6,7,8]) [] []]
    rootOf e (fun f _ x => do f.rawValue (← kidOf 2 f x)) = .ok ⟨INT64, [1,2,3,4,5,6,7,8]⟩ ∧
    packedRoot (fun _ => 0) e (fun f _ x => do f.rawValue (← kidOf 2 f x)) = .ub := by
  decide +kernel

/-- C34 fails for `<a><c>…</c><b>x y</b><c>…</c></a>` with a 64-bit value in `c`: the equal elements are stored twice, because they are
padded differently. -/
theorem C34_int64_false :
    let c := Elem.mk (b8 "c") (.bin INT64 [1,2,3,4,5,6,7,8]) [] []
    let e := Elem.mk (b8 "a") .none [] [c, .mk (b8 "b") (.text "x y".toList) [] [], c]
    packedRoot (fun _ => 0) e (fun f _ x => do return (decide ((← kidOf 0 f x) = (← kidOf 2 f x)))) = .ok false := by
  decide +kernel

/-- C34 fails for `<a><b>17</b><b>17</b></a>`: the bytes between the type and the value are never written, so it depends on the content of
the memory obtained from `malloc` whether the equal elements are stored once. -/
theorem C34_garbage_false :
    let b := Elem.mk (b8 "b") (.text "17".toList) [] []
    let e := Elem.mk (b8 "a") .none [] [b, b]
    packedRoot (fun _ => 0) e (fun f _ x => do return (decide ((← kidOf 0 f x) = (← kidOf 1 f x)))) = .ok true ∧
    packedRoot (fun i => UInt8.ofNat i) e (fun f _ x => do return (decide ((← kidOf 0 f x) = (← kidOf 1 f x)))) = .ok false := by
  decide +kernel

end BX
