import Verif.Lemmas.FillData
/-
Properties C28 (a stored document reads back) and C29 (extents of stored elements).
-/
namespace BX
open XBT Spec

/-! ### names and types of a document -/

mutual
theorem namesIn_of_ops (P Q : BStr → Prop) : ∀ e : Elem, (∀ op ∈ tagOps e, P op.name) → (∀ op ∈ paramOps e, Q op.name) → NamesIn P Q e
  | .mk name value params children, h1, h2 => by
    unfold tagOps at h1
    unfold paramOps at h2
    unfold NamesIn
    refine ⟨h1 _ (List.mem_cons_self ..), ?_, namesInAll_of_ops P Q children (fun op h => h1 op (by simp [h])) (fun op h => h2 op (by simp [h]))⟩
    intro p hp
    have := h2 (paramOp p) (by simp only [List.mem_append, List.mem_map]; exact Or.inl ⟨p, hp, rfl⟩)
    have e : (paramOp p).name = p.1 := by unfold paramOp; cases p.2 <;> rfl
    rw [e] at this
    exact this
theorem namesInAll_of_ops (P Q : BStr → Prop) : ∀ es : List Elem, (∀ op ∈ tagOpsL es, P op.name) → (∀ op ∈ paramOpsL es, Q op.name) → NamesInAll P Q es
  | [], _, _ => by unfold NamesInAll; trivial
  | e :: es, h1, h2 => by
    unfold tagOpsL at h1
    unfold paramOpsL at h2
    unfold NamesInAll
    exact ⟨namesIn_of_ops P Q e (fun op h => h1 op (by simp [h])) (fun op h => h2 op (by simp [h])),
      namesInAll_of_ops P Q es (fun op h => h1 op (by simp [h])) (fun op h => h2 op (by simp [h]))⟩
end

mutual
theorem ops_of_namesIn (P Q : BStr → Prop) : ∀ e : Elem, NamesIn P Q e → (∀ op ∈ tagOps e, P op.name) ∧ (∀ op ∈ paramOps e, Q op.name)
  | .mk name value params children, h => by
    unfold NamesIn at h
    obtain ⟨i1, i2⟩ := ops_of_namesInAll P Q children h.2.2
    unfold tagOps paramOps
    refine ⟨?_, ?_⟩
    · intro op hop
      rcases List.mem_cons.mp hop with rfl | hop
      · exact h.1
      · exact i1 op hop
    · intro op hop
      rcases List.mem_append.mp hop with hop | hop
      · obtain ⟨p, hp, rfl⟩ := List.mem_map.mp hop
        have e : (paramOp p).name = p.1 := by unfold paramOp; cases p.2 <;> rfl
        rw [e]
        exact h.2.1 p hp
      · exact i2 op hop
theorem ops_of_namesInAll (P Q : BStr → Prop) : ∀ es : List Elem, NamesInAll P Q es → (∀ op ∈ tagOpsL es, P op.name) ∧ (∀ op ∈ paramOpsL es, Q op.name)
  | [], _ => by unfold tagOpsL paramOpsL; simp
  | e :: es, h => by
    unfold NamesInAll at h
    obtain ⟨i1, i2⟩ := ops_of_namesIn P Q e h.1
    obtain ⟨j1, j2⟩ := ops_of_namesInAll P Q es h.2
    unfold tagOpsL paramOpsL
    exact ⟨fun op hop => (List.mem_append.mp hop).elim (i1 op) (j1 op), fun op hop => (List.mem_append.mp hop).elim (i2 op) (j2 op)⟩
end

mutual
theorem TreeOk.congr {pt pt' : BStr → XBT} : ∀ e : Elem, NamesIn (fun _ => True) (fun s => pt' s = pt s) e → TreeOk pt e → TreeOk pt' e
  | .mk name value params children, h, hok => by
    unfold NamesIn at h
    unfold TreeOk at hok ⊢
    exact ⟨hok.1, fun p hp => by rw [h.2.1 p hp]; exact hok.2.1 p hp, TreeOkAll.congr children h.2.2 hok.2.2⟩
theorem TreeOkAll.congr {pt pt' : BStr → XBT} : ∀ es : List Elem, NamesInAll (fun _ => True) (fun s => pt' s = pt s) es → TreeOkAll pt es → TreeOkAll pt' es
  | [], _, _ => by unfold TreeOkAll; trivial
  | e :: es, h, hok => by
    unfold NamesInAll at h
    unfold TreeOkAll at hok ⊢
    exact ⟨TreeOk.congr e h.1 hok.1, TreeOkAll.congr es h.2 hok.2⟩
end

mutual
theorem Reads.congr {flt : CStr → List UInt8} {pt pt' : BStr → XBT} {f : Img} {r : Rd} : ∀ (e : Elem) (x : Int), NamesIn (fun _ => True) (fun s => pt' s = pt s) e →
    Reads flt pt f r e x → Reads flt pt' f r e x
  | .mk name value params children, x, h, hr => by
    unfold NamesIn at h
    unfold Reads at hr ⊢
    obtain ⟨h1, h2, h3, h4, h5, h6⟩ := hr
    refine ⟨h1, h2, ?_, h4, h5, ReadsAll.congr children x 0 h.2.2 h6⟩
    intro i hi
    have := h3 i hi
    unfold ReadsAttr at this ⊢
    rw [h.2.1 params[i] (List.getElem_mem hi)]
    exact this
theorem ReadsAll.congr {flt : CStr → List UInt8} {pt pt' : BStr → XBT} {f : Img} {r : Rd} : ∀ (es : List Elem) (x : Int) (i : Nat), NamesInAll (fun _ => True) (fun s => pt' s = pt s) es →
    ReadsAll flt pt f r es x i → ReadsAll flt pt' f r es x i
  | [], _, _, _, _ => by unfold ReadsAll; trivial
  | e :: es, x, i, h, hr => by
    unfold NamesInAll at h
    unfold ReadsAll at hr ⊢
    obtain ⟨⟨y, h1, h2⟩, h3⟩ := hr
    exact ⟨⟨y, h1, Reads.congr e y h.1 h2⟩, ReadsAll.congr es x (i + 1) h.2 h3⟩
end

/-- the type the writer finds for an attribute of the document -/
theorem ptype_eq {ops : List RegOp} (hn : ∀ op ∈ ops, NoNul op.name) {c : Ctx} (hc : c.params = regAll ops) {s : BStr} (hs : NoNul s)
    (hm : ∃ en ∈ regAll ops, en.1 = s) :
    c.ptype s = if s = b8 "et-tecera" then UNKNOWN else (typeAfter (ops.filter fun op => op.name == s)).getD UNKNOWN := by
  have hg := regAll_good ops hn
  unfold Ctx.ptype
  rw [hc]
  by_cases he : s = b8 "et-tecera"
  · rw [if_pos he, he]
    have : (regAll ops).find (some (b8 "et-tecera")) = -9 := by unfold SymTab.find; simp [etTecera]
    rw [this]
    rfl
  · rw [if_neg he]
    obtain ⟨en, hen, rfl⟩ := hm
    obtain ⟨i, hi, hie⟩ := List.getElem_of_mem hen
    have hf : (regAll ops).find (some en.1) = (i : Int) := by
      rw [hg.find_iff hs he, SymTab.names, List.getElem?_map, List.getElem?_eq_getElem hi, hie]
      rfl
    rw [hf, if_pos (by omega), Int.toNat_natCast, SymTab.type, List.getD_eq_getElem?_getD, List.getElem?_eq_getElem hi]
    have := C25_types ops hn en hen
    rw [this]
    simp only [Option.getD_some]
    rw [hie]

/-- an id found in the creator's table is translated back by the loaded table -/
theorem find_getSymbol {f : Img} {x stop : Nat} {tag : Int} {t : SymTab} (h : StoredItem f x stop tag t) (ht : t.Good) {s : BStr} (hs : NoNul s)
    (hm : ∃ en ∈ t, en.1 = s) : (-32768 ≤ t.find (some s) ∧ t.find (some s) ≤ 32767) ∧ f.getSymbol (rtab x t) (t.find (some s)) = .ok s := by
  by_cases he : s = etTecera
  · have : t.find (some s) = -9 := by unfold SymTab.find; simp [he]
    rw [this, he]
    exact ⟨by omega, rfl⟩
  · obtain ⟨en, hen, rfl⟩ := hm
    obtain ⟨i, hi, hie⟩ := List.getElem_of_mem hen
    have hf : t.find (some en.1) = (i : Int) := by
      rw [ht.find_iff hs he, SymTab.names, List.getElem?_map, List.getElem?_eq_getElem hi, hie]
      rfl
    have hmax := ht.max
    unfold MAX_SYMBOL_COUNT at hmax
    rw [hf]
    refine ⟨by omega, ?_⟩
    have hnn : ∀ e ∈ t, NoNul e.1 := fun e he => ht.nonul _ (List.mem_map_of_mem he)
    unfold rtab
    rw [if_neg (by omega), ← hie]
    exact h.st.getSymbol (by omega) hnn _ i hi

/-- the same with the reserved name -/
theorem find_getSymbol' {f : Img} {x stop : Nat} {tag : Int} {t : SymTab} (h : StoredItem f x stop tag t) (ht : t.Good) {s : BStr} (hs : s = b8 "et-tecera" ∨ NoNul s ∧ ∃ en ∈ t, en.1 = s) :
    (-32768 ≤ t.find (some s) ∧ t.find (some s) ≤ 32767) ∧ f.getSymbol (rtab x t) (t.find (some s)) = .ok s := by
  rcases hs with rfl | ⟨h1, h2⟩
  · have : t.find (some (b8 "et-tecera")) = -9 := by unfold SymTab.find; simp [etTecera]
    rw [this]
    exact ⟨by omega, rfl⟩
  · exact find_getSymbol h ht h1 h2

/-! ### opening a written file -/

theorem StoredItem.check {f : Img} {x stop : Nat} {tag : Int} {t : SymTab} (h : StoredItem f x stop tag t) (ht : -11 < tag ∧ tag < 0) (hs : aa stop ≤ f.size)
    (tc pc : Int) (htc : 0 ≤ tc) (hpc : 0 ≤ pc) (fuel : Nat) : f.check tc pc false (fuel + 1) x = .ok true := by
  have h2 := h.st.refs_le
  have h3 := h.st.small
  have hal := h.al
  have hge := aa_ge stop
  unfold Img.check
  rw [if_neg (by omega), if_neg (by omega)]
  unfold Img.length Img.name Img.paramcount Img.childcount
  rw [f.i32_ok h.ln (by omega) (by unfold isI32 INT_MIN INT_MAX; omega) _ (by omega)]
  simp only [Out.ok_bind]
  rw [if_neg (by omega), if_neg (by omega), f.i16_ok h.nm (by omega) (by omega) _ rfl]
  simp only [Out.ok_bind]
  rw [f.i16_ok h.pc (by omega) (by omega) _ (by omega)]
  simp only [Out.ok_bind]
  rw [f.i32_ok h.cc (by omega) (by unfold isI32 INT_MIN INT_MAX; omega) _ (by omega)]
  simp only [Out.ok_bind]
  rw [if_neg (by omega), if_neg (by omega)]
  have e1 : toU 64 (12 + 2 * 8 + 0 * 4) = 28 := by decide
  have e2 : toU 32 ((aa stop : Int) - x) = (aa stop - x : Nat) := by unfold toU; omega
  rw [e1, e2, if_neg (by omega)]
  have hp : f.checkParams x ((aa stop : Int) - x) pc (Int.toNat 2) (x + 12) = .ok none := by
    show f.checkParams x ((aa stop : Int) - x) pc (1 + 1) (x + 12) = .ok none
    unfold Img.checkParams Img.pName Img.pType
    rw [f.i16_ok h.n1 (by omega) (by omega) _ (by omega)]
    simp only [Out.ok_bind]
    rw [f.u8_ok h.t1 (by omega) _ (by omega)]
    simp only [Out.ok_bind]
    rw [if_neg (by omega), if_neg (by omega), if_neg (by decide), if_pos (by decide)]
    unfold Img.checkParams Img.pName Img.pType
    rw [f.i16_ok h.n2 (by omega) (by omega) _ (by omega)]
    simp only [Out.ok_bind]
    rw [f.u8_ok h.t2 (by omega) _ (by omega)]
    simp only [Out.ok_bind]
    rw [if_neg (by omega), if_neg (by omega), if_neg (by decide), if_pos (by decide)]
    rfl
  rw [hp]
  rfl

/-- the root passes every check: the second attribute (the name of the source) ends it -/
theorem Front.checkRoot {f : Img} {c : Ctx} {filename : BStr} {len x1 s1 x2 s2 x3 x4 : Nat} {plen : Int} (h : Front f c filename len x1 s1 x2 s2 x3 x4 plen) (hn : NoNul filename)
    (tc pc : Int) (htc : 0 ≤ tc) (hpc : 0 ≤ pc) (rec : Bool) (fuel : Nat) : f.check tc pc rec (fuel + 1) 0 = .ok true := by
  have hs := h.small
  have hi := h.inside
  have hl := h.lo
  have hr := h.rpos
  have i1 := h.tab1.st.refs_le
  have i2 := h.tab2.st.refs_le
  have hx12 := h.x12
  have hx23 := h.x23
  have g1 := aa_ge s1
  have g2 := aa_ge s2
  unfold Img.check
  rw [if_neg (by omega), if_neg (by omega)]
  rw [show f.length 0 = .ok (len : Int) from h.head.length (by omega)]
  simp only [Out.ok_bind]
  rw [if_neg (by omega), if_neg (by omega), show f.name 0 = .ok (-2) from h.head.name (by omega)]
  simp only [Out.ok_bind]
  rw [show f.paramcount 0 = .ok 4 from h.head.paramcount (by omega)]
  simp only [Out.ok_bind]
  rw [show f.childcount 0 = .ok 3 from h.head.childcount (by omega)]
  simp only [Out.ok_bind]
  rw [if_neg (by omega), if_neg (by omega)]
  have e1 : toU 64 (12 + 4 * 8 + 3 * 4) = 56 := by decide
  have e2 : toU 32 (len : Int) = len := by unfold toU; omega
  rw [e1, e2, if_neg (by omega)]
  have hp : f.checkParams 0 len pc (Int.toNat 4) (0 + 12) = .ok (some true) := by
    show f.checkParams 0 len pc (3 + 1) (0 + 12) = .ok (some true)
    unfold Img.checkParams Img.pName Img.pType
    rw [f.i16_ok h.n1 (by omega) (by omega) _ (by omega)]
    simp only [Out.ok_bind]
    rw [f.u8_ok h.t1 (by omega) _ (by omega)]
    simp only [Out.ok_bind]
    rw [if_neg (by omega), if_neg (by omega), if_neg (by decide), if_pos (by decide)]
    show f.checkParams 0 len pc (2 + 1) _ = .ok (some true)
    unfold Img.checkParams Img.pName Img.pType Img.pData
    rw [f.i16_ok h.n2 (by omega) (by omega) _ (by omega)]
    simp only [Out.ok_bind]
    rw [f.u8_ok h.t2 (by omega) _ (by omega)]
    simp only [Out.ok_bind]
    rw [if_neg (by omega), if_neg (by omega), if_neg (by decide), if_neg (by decide)]
    rw [f.i32_ok h.d2 (by omega) (by unfold isI32 INT_MIN INT_MAX; omega) _ (by omega)]
    simp only [Out.ok_bind]
    rw [if_neg (by omega), if_neg (by omega)]
    simp only [if_true]
    rw [f.strnlen_ok h.nm hn (by omega) _ (by omega) _ (by omega)]
    simp only [Out.ok_bind, Out.pure_eq]
    congr 2
    simp only [decide_eq_true_eq]
    omega
  rw [hp]
  rfl

/-- the children of the root by their reserved names -/
theorem Front.child {f : Img} {c : Ctx} {filename : BStr} {len x1 s1 x2 s2 x3 x4 : Nat} {plen : Int} (h : Front f c filename len x1 s1 x2 s2 x3 x4 plen) :
    f.getChildByName 0 (-3) = .ok (some (x1 : Int)) ∧ f.getChildByName 0 (-4) = .ok (some (x2 : Int)) ∧ f.getChildByName 0 (-6) = .ok (some (x3 : Int)) ∧
    f.getChildByIndex x3 0 = .ok (some (x4 : Int)) := by
  have hs := h.small
  have hi := h.inside
  have hl := h.lo
  have hr := h.rpos
  have i1 := h.tab1.st.refs_le
  have i2 := h.tab2.st.refs_le
  have hx12 := h.x12
  have hx23 := h.x23
  have g1 := aa_ge s1
  have g2 := aa_ge s2
  have r1 : f.i32 44 = .ok (x1 : Int) := f.i32_ok h.c1 (by omega) (by unfold isI32 INT_MIN INT_MAX; omega) _ (by omega)
  have r2 : f.i32 48 = .ok (x2 : Int) := f.i32_ok h.c2 (by omega) (by unfold isI32 INT_MIN INT_MAX; omega) _ (by omega)
  have r3 : f.i32 52 = .ok (x3 : Int) := f.i32_ok h.c3 (by omega) (by unfold isI32 INT_MIN INT_MAX; omega) _ (by omega)
  have q1 : f.name (x1 : Int) = .ok (-3) := f.i16_ok h.tab1.nm (by omega) (by omega) _ rfl
  have q2 : f.name (x2 : Int) = .ok (-4) := f.i16_ok h.tab2.nm (by omega) (by omega) _ rfl
  have q3 : f.name (x3 : Int) = .ok (-6) := h.pay.name (by omega)
  have base : ∀ code, f.getChildByName 0 code = f.findChild 0 code 3 44 := by
    intro code
    unfold Img.getChildByName
    rw [show f.childcount 0 = .ok 3 from h.head.childcount (by omega)]
    simp only [Out.ok_bind]
    rw [if_neg (by omega)]
    rw [show f.childrenAt 0 = .ok 44 from h.head.childrenAt (by omega)]
    rfl
  refine ⟨?_, ?_, ?_, ?_⟩
  · rw [base]; simp [Img.findChild, r1, q1]
  · rw [base]; simp [Img.findChild, r1, q1, r2, q2]
  · rw [base]; simp [Img.findChild, r1, q1, r2, q2, r3, q3]
  · unfold Img.getChildByIndex
    rw [h.pay.childcount (by omega)]
    simp only [Out.ok_bind]
    rw [if_neg (by omega), h.pay.childrenAt (by omega)]
    simp only [Out.ok_bind]
    rw [f.i32_ok h.pc (by omega) (by unfold isI32 INT_MIN INT_MAX; omega) _ (by omega)]
    simp only [Out.ok_bind, Out.pure_eq]
    congr 2
    omega

theorem Front.initialize {f : Img} {c : Ctx} {filename : BStr} {len x1 s1 x2 s2 x3 x4 : Nat} {plen : Int} (h : Front f c filename len x1 s1 x2 s2 x3 x4 plen) (hn : NoNul filename)
    (ht : c.tags.Good) (hp : c.params.Good) (fuel : Nat) :
    f.initialize (fuel + 1) = .ok ⟨rtab x1 c.tags, rtab x2 c.params, some (x4 : Int)⟩ := by
  have hi := h.inside
  have hl := h.lo
  have hr := h.rpos
  have i2 := h.tab2.st.refs_le
  have hx12 := h.x12
  have hx23 := h.x23
  have g2 := aa_ge s2
  obtain ⟨c1, c2, c3, c4⟩ := h.child
  unfold Img.initialize
  rw [if_neg (by omega), show f.name 0 = .ok (-2) from h.head.name (by omega)]
  simp only [Out.ok_bind]
  rw [if_neg (by simp)]
  unfold Img.checkPtr
  simp only
  rw [h.checkRoot hn 0 0 (by omega) (by omega)]
  simp only [Out.ok_bind, if_true, Out.pure_eq]
  rw [c1]
  simp only [Out.ok_bind]
  rw [h.tab1.check (by omega) (by omega) 0 0 (by omega) (by omega)]
  simp only [Out.ok_bind, if_true]
  rw [h.tab1.load ht.max (fun e he => ht.nonul _ (List.mem_map_of_mem he))]
  simp only [Out.ok_bind]
  rw [c2]
  simp only [Out.ok_bind]
  rw [h.tab2.check (by omega) (by omega) _ 0 (by rw [rtab_count]; omega) (by omega)]
  simp only [Out.ok_bind, if_true]
  rw [h.tab2.load hp.max (fun e he => hp.nonul _ (List.mem_map_of_mem he))]
  simp only [Out.ok_bind]
  rw [h.checkRoot hn _ _ (by rw [rtab_count]; omega) (by rw [rtab_count]; omega)]
  simp only [Out.ok_bind, if_true]
  rw [c3]
  simp only [Out.ok_bind]
  rw [c4]
  simp only [Out.ok_bind]

/-! ### C28 -/

/-- everything known about a file made from a document -/
theorem makeXb_facts (flt : CStr → List UInt8) (hflt : ∀ s, (flt s).length = 4) (filename : BStr) (hfn : NoNul filename) (mtime : Int) (filesize : Nat)
    (hsz : 1024 + filesize * 4 < 2147483648) (m0 : Mem) (e : Elem) (f : Img) (h : makeXb flt filename mtime filesize m0 e = .ok f)
    (hroom : f.size < 1024 + filesize * 4) (hnames : NamesIn NoNul NoNul e) (htags : AtMost 32768 (tagOps e)) (hpars : AtMost 32768 (paramOps e))
    (hok : TreeOk (docAttrType e) e) :
    ∃ r x, (∀ fuel, f.initialize (fuel + 1) = .ok r) ∧ r.root = some x ∧ Reads flt (docAttrType e) f r e x ∧ Laid f e x ∧
      (∃ L : Nat, f.length 0 = .ok (L : Int) ∧ aa L = f.size) ∧
      (∀ op ∈ tagOps e, TagOk f r ⟨regAll (tagOps e), regAll (paramOps e), flt, 1024 + filesize * 4⟩ op.name) ∧
      (∀ op ∈ paramOps e, ParOk f r ⟨regAll (tagOps e), regAll (paramOps e), flt, 1024 + filesize * 4⟩ op.name) := by
  unfold makeXb makeXbWith at h
  obtain ⟨⟨m', len⟩, hfd, h⟩ := Out.bind_eq_ok h
  simp only [Out.pure_eq, Out.ok.injEq] at h
  subst h
  simp only at hroom
  obtain ⟨hn1, hn2⟩ := ops_of_namesIn _ _ e hnames
  have hge := aa_ge len
  have hpt : NamesIn (fun _ => True) (fun s => Ctx.ptype ⟨regAll (tagOps e), regAll (paramOps e), flt, 1024 + filesize * 4⟩ s = docAttrType e s) e := by
    apply namesIn_of_ops
    · intro _ _; trivial
    · intro op hop
      exact ptype_eq hn2 rfl (hn2 op hop) ((C25_members _ hn2 hpars _).mpr ⟨op, hop, rfl⟩)
  obtain ⟨x1, s1, x2, s2, x3, hw⟩ := fillData_spec (c := ⟨regAll (tagOps e), regAll (paramOps e), flt, 1024 + filesize * 4⟩) hflt hsz hfd (TreeOk.congr e hpt hok) (by simp only; omega) ⟨m', aa len⟩
    (by simp only; omega) hge (fun _ _ => rfl)
  have hgt := regAll_good _ hn1
  have hgp := regAll_good _ hn2
  have k1 := fun op hop => find_getSymbol hw.tab1 hgt (hn1 op hop) ((C25_members _ hn1 htags _).mpr ⟨op, hop, rfl⟩)
  have k2 := fun op hop => find_getSymbol hw.tab2 hgp (hn2 op hop) ((C25_members _ hn2 hpars _).mpr ⟨op, hop, rfl⟩)
  refine ⟨_, _, hw.initialize hfn hgt hgp, rfl, ?_, hw.laid, ⟨len, hw.head.length (by omega), rfl⟩, k1, k2⟩
  refine Reads.congr e _ (NamesIn.mono (fun _ _ => trivial) (fun s hs => hs.symm) e hpt) (hw.reads _ ?_)
  exact namesIn_of_ops _ _ e k1 k2

/-- the same for a file made with given registrations of symbols -/
theorem makeXbWith_facts (flt : CStr → List UInt8) (hflt : ∀ s, (flt s).length = 4) (ts ps : List RegOp) (filename : BStr) (hfn : NoNul filename) (mtime : Int) (filesize : Nat)
    (hsz : 1024 + filesize * 4 < 2147483648) (m0 : Mem) (e : Elem) (f : Img) (h : makeXbWith flt ts ps filename mtime filesize m0 e = .ok f)
    (hroom : f.size < 1024 + filesize * 4) (hn1 : ∀ op ∈ ts, NoNul op.name) (hn2 : ∀ op ∈ ps, NoNul op.name) (htags : AtMost 32768 ts) (hpars : AtMost 32768 ps)
    (hin : NamesIn (fun s => s = b8 "et-tecera" ∨ ∃ op ∈ ts, op.name = s) (fun s => ∃ op ∈ ps, op.name = s) e) (hok : ∀ pt, TreeOk pt e) :
    ∃ r x pt, (∀ fuel, f.initialize (fuel + 1) = .ok r) ∧ r.root = some x ∧ Reads flt pt f r e x ∧ Laid f e x ∧ (∃ L : Nat, f.length 0 = .ok (L : Int) ∧ aa L = f.size) ∧
      (∀ s, (s = b8 "et-tecera" ∨ ∃ op ∈ ts, op.name = s) → TagOk f r ⟨regAll ts, regAll ps, flt, 1024 + filesize * 4⟩ s) ∧
      (∀ s, (∃ op ∈ ps, op.name = s) → ParOk f r ⟨regAll ts, regAll ps, flt, 1024 + filesize * 4⟩ s) := by
  unfold makeXbWith at h
  obtain ⟨⟨m', len⟩, hfd, h⟩ := Out.bind_eq_ok h
  simp only [Out.pure_eq, Out.ok.injEq] at h
  subst h
  simp only at hroom
  have hge := aa_ge len
  obtain ⟨x1, s1, x2, s2, x3, hw⟩ := fillData_spec (c := ⟨regAll ts, regAll ps, flt, 1024 + filesize * 4⟩) hflt hsz hfd (hok _) (by simp only; omega) ⟨m', aa len⟩
    (by simp only; omega) hge (fun _ _ => rfl)
  have hgt := regAll_good _ hn1
  have hgp := regAll_good _ hn2
  have k1 : ∀ s, (s = b8 "et-tecera" ∨ ∃ op ∈ ts, op.name = s) → _ := fun s hs => find_getSymbol' hw.tab1 hgt (s := s) (hs.imp_right fun ⟨op, hop, e⟩ => ⟨e ▸ hn1 op hop, e ▸ (C25_members _ hn1 htags _).mpr ⟨op, hop, rfl⟩⟩)
  have k2 : ∀ s, (∃ op ∈ ps, op.name = s) → _ := fun s ⟨op, hop, e⟩ => find_getSymbol hw.tab2 hgp (s := s) (e ▸ hn2 op hop) (e ▸ (C25_members _ hn2 hpars _).mpr ⟨op, hop, rfl⟩)
  exact ⟨_, _, _, hw.initialize hfn hgt hgp, rfl, hw.reads _ (NamesIn.mono k1 k2 e hin), hw.laid, ⟨len, hw.head.length (by omega), rfl⟩, k1, k2⟩

/-- C28: a document whose values are of the faithfully stored kinds (`TreeOk`) and that has at most 32768 different tag and
attribute names, written by `Make_xb` into a buffer that it did not fill up, is accepted by the reader, and the root element of
the opened file reads as the document: names, attributes with their values in order, values, children in order. -/
theorem C28_document_partial (flt : CStr → List UInt8) (hflt : ∀ s, (flt s).length = 4) (filename : BStr) (hfn : NoNul filename) (mtime : Int) (filesize : Nat)
    (hsz : 1024 + filesize * 4 < 2147483648) (m0 : Mem) (e : Elem) (f : Img) (h : makeXb flt filename mtime filesize m0 e = .ok f)
    (hroom : f.size < 1024 + filesize * 4) (hnames : NamesIn NoNul NoNul e) (htags : AtMost 32768 (tagOps e)) (hpars : AtMost 32768 (paramOps e))
    (hok : TreeOk (docAttrType e) e) (fuel : Nat) :
    ∃ r x, f.initialize (fuel + 1) = .ok r ∧ r.root = some x ∧ Reads flt (docAttrType e) f r e x ∧ Laid f e x := by
  obtain ⟨r, x, h1, h2, h3, h4, -⟩ := makeXb_facts flt hflt filename hfn mtime filesize hsz m0 e f h hroom hnames htags hpars hok
  exact ⟨r, x, h1 fuel, h2, h3, h4⟩

/-! ### C29 -/

/-- C29: wherever an element is written, with whatever alignment and buffer contents, it occupies exactly the bytes from its start
(the next multiple of four) to the new write pointer, as its length field says; the bytes before it stay as they are, and in
every file containing its bytes all elements of the subtree are aligned, disjoint and nested (`Laid`). -/
theorem C29_extents_partial (c : Ctx) (hflt : ∀ s, (c.flt s).length = 4) (hlim : c.limit < 2147483648) (e : Elem) (hok : TreeOk c.ptype e) (m : Mem) (wp : Nat)
    (m' : Mem) (wp' x : Nat) (h : writeNode c e m wp = .ok (m', wp', x)) (hfull : wp' < c.limit) :
    wp ≤ x ∧ x < wp + 4 ∧ x % 4 = 0 ∧ (∀ a, a < x → m' a = m a) ∧
    ∀ f : Img, f.size < 2147483648 → wp' ≤ f.size → (∀ a, x ≤ a → a < wp' → f.mem a = m' a) → f.length x = .ok ((wp' : Int) - x) ∧ Laid f e x := by
  obtain ⟨e1, e2⟩ := writeNode_mono e h hok
  obtain ⟨s1, s2⟩ := writeNode_spec hflt hlim e h hok hfull
  have := aa_ge wp
  have := aa_lt wp
  have := aa_mod wp
  rw [← e1] at *
  refine ⟨by omega, by omega, by omega, s1, fun f h1 h2 h3 => ?_⟩
  obtain ⟨t1, t2, -⟩ := s2 f h1 h2 h3
  exact ⟨t1, t2⟩

theorem LaidAll.le {f : Img} {x : Int} : ∀ (es : List Elem) (i : Nat) (lo hi : Int), LaidAll f es x i lo hi → lo ≤ hi
  | [], i, lo, hi, h => by unfold LaidAll at h; omega
  | e :: es, i, lo, hi, h => by
    unfold LaidAll at h
    obtain ⟨y, len, -, h1, h2, -, h3, -, h4⟩ := h
    have := LaidAll.le es (i + 1) _ _ h4
    omega

/-- the `j`-th child from the `i`-th on lies between `lo` and `hi` -/
theorem LaidAll.child {f : Img} {x : Int} : ∀ (es : List Elem) (i : Nat) (lo hi : Int), LaidAll f es x i lo hi → ∀ j (hj : j < es.length),
    ∃ y len, f.getChildByIndex x ((i + j : Nat) : Int) = .ok (some y) ∧ f.length y = .ok len ∧ 12 < len ∧ lo ≤ y ∧ y + len ≤ hi ∧ Laid f es[j] y
  | e :: es, i, lo, hi, h, 0, _ => by
    unfold LaidAll at h
    obtain ⟨y, len, h0, h1, h2, h5, h3, h6, h4⟩ := h
    have := LaidAll.le es (i + 1) _ _ h4
    exact ⟨y, len, h0, h5, h3, h1, this, h6⟩
  | e :: es, i, lo, hi, h, j + 1, hj => by
    unfold LaidAll at h
    obtain ⟨y, len, h0, h1, h2, h5, h3, h6, h4⟩ := h
    obtain ⟨y', len', k1, k2, k3, k4, k5, k6⟩ := LaidAll.child es (i + 1) _ _ h4 j (by simpa using hj)
    refine ⟨y', len', ?_, k2, k3, by omega, k5, k6⟩
    rw [show i + (j + 1) = i + 1 + j by omega]
    exact k1

theorem LaidAll.siblings {f : Img} {x : Int} : ∀ (es : List Elem) (i : Nat) (lo hi : Int), LaidAll f es x i lo hi → ∀ j k, j < k → k < es.length →
    ∃ y len z, f.getChildByIndex x ((i + j : Nat) : Int) = .ok (some y) ∧ f.length y = .ok len ∧ f.getChildByIndex x ((i + k : Nat) : Int) = .ok (some z) ∧ y + len ≤ z
  | e :: es, i, lo, hi, h, 0, k + 1, _, hk => by
    unfold LaidAll at h
    obtain ⟨y, len, h0, h1, h2, h5, h3, h6, h4⟩ := h
    obtain ⟨z, len', k1, k2, k3, k4, k5, k6⟩ := LaidAll.child es (i + 1) _ _ h4 k (by simpa using hk)
    refine ⟨y, len, z, h0, h5, ?_, k4⟩
    rw [show i + (k + 1) = i + 1 + k by omega]
    exact k1
  | e :: es, i, lo, hi, h, j + 1, k + 1, hjk, hk => by
    unfold LaidAll at h
    obtain ⟨y, len, h0, h1, h2, h5, h3, h6, h4⟩ := h
    obtain ⟨y', len', z, k1, k2, k3, k4⟩ := LaidAll.siblings es (i + 1) _ _ h4 j k (by omega) (by simpa using hk)
    refine ⟨y', len', z, ?_, k2, ?_, k4⟩
    · rw [show i + (j + 1) = i + 1 + j by omega]; exact k1
    · rw [show i + (k + 1) = i + 1 + k by omega]; exact k3

/-- C29, what `Laid` says about an element and its children: the element is aligned and inside of the file; each child is again
laid out like this, begins behind the header, the attribute descriptions, the child references and the value's type byte of its
parent, and ends within the parent; an earlier child ends before a later one begins. -/
theorem C29_laid (f : Img) (e : Elem) (x : Int) (h : Laid f e x) :
    x % 4 = 0 ∧ ∃ len, f.length x = .ok len ∧ x + len ≤ f.size ∧
    (∀ j (hj : j < e.children.length), ∃ y len', f.getChildByIndex x (j : Int) = .ok (some y) ∧ f.length y = .ok len' ∧ 12 < len' ∧
      x + 12 + 8 * (e.params.length : Int) + 4 * (e.children.length : Int) < y ∧ y + len' ≤ x + len ∧ Laid f e.children[j] y) ∧
    (∀ j k, j < k → k < e.children.length → ∃ y len' z, f.getChildByIndex x (j : Int) = .ok (some y) ∧ f.length y = .ok len' ∧
      f.getChildByIndex x (k : Int) = .ok (some z) ∧ y + len' ≤ z) := by
  obtain ⟨name, value, params, children⟩ := e
  unfold Laid at h
  obtain ⟨h1, len, own, h2, h3, h4, h5⟩ := h
  refine ⟨h1, len, h2, h4, ?_, ?_⟩
  · intro j hj
    obtain ⟨y, len', k1, k2, k3, k4, k5, k6⟩ := LaidAll.child children 0 _ _ h5 j hj
    simp only [Nat.zero_add] at k1
    refine ⟨y, len', k1, k2, k3, ?_, k5, k6⟩
    simp only [Elem.params, Elem.children]
    omega
  · intro j k hjk hk
    obtain ⟨y, len', z, k1, k2, k3, k4⟩ := LaidAll.siblings children 0 _ _ h5 j k hjk hk
    simp only [Nat.zero_add] at k1 k3
    exact ⟨y, len', z, k1, k2, k3, k4⟩

end BX
