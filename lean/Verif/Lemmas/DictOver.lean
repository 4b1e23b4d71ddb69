import Verif.Lemmas.DictOk
/-
The symbol with identification 128.
-/
namespace BX
open XBT Spec

/-- the sequential search passes the first symbols -/
theorem byNameSeq_pass {f : Img} {lim : Nat} {maxId : Int} {name : BStr} (hn : GoodName name) (hl : lim ≤ f.size) : ∀ (l : List Sym) (p k fuel : Nat) (id : Int),
    Has f.mem p (encSyms k l) → (∀ s ∈ l, GoodName s.name ∧ s.name ≠ name) → p % 4 = 0 → p + symsLen l ≤ lim → (k : Int) + l.length ≤ maxId → k + l.length ≤ 128 → id ≤ maxId → 2 * l.length < fuel →
    ∃ (fuel' : Nat) (id' : Int), id' ≤ maxId ∧ fuel ≤ fuel' + 2 * l.length ∧ f.byNameSeq lim maxId name fuel id p = f.byNameSeq lim maxId name fuel' id' (p + symsLen l)
  | [], p, k, fuel, id, h, hg, hp, h1, hm, h2, hid, hf => ⟨fuel, id, hid, by omega, rfl⟩
  | s :: l, p, k, fuel, id, h, hg, hp, h1, hm, h2, hid, hf => by
    obtain ⟨n, rfl⟩ : ∃ n, fuel = n + 1 := ⟨fuel - 1, by omega⟩
    simp only [List.length_cons] at hm h2 hf ⊢
    rw [encSyms, Has.append, encRec_length] at h
    simp only [symsLen] at h1 ⊢
    have hr := recAt_of (by omega) h.1
    have hlen := recLen_ge s
    obtain ⟨hgs, hns⟩ := hg s List.mem_cons_self
    obtain ⟨r, q, e, q1, q2, hq⟩ := cmpName_ok name s.name (p + 3) hr.nm hgs.2 hn.2 (lim := lim) (by omega) hl
    obtain ⟨G, hG⟩ : ∃ G, G = f.byNameSeq lim maxId name := ⟨_, rfl⟩
    suffices ∃ (fuel' : Nat) (id' : Int), id' ≤ maxId ∧ n + 1 ≤ fuel' + 2 * (l.length + 1) ∧ f.byNameSeq lim maxId name (n + 1) id p = G fuel' id' (p + (recLen s + symsLen l)) by
      rw [hG] at this; exact this
    unfold Img.byNameSeq
    rw [if_neg (by omega), f.u8_ok hr.lo (by omega) _ rfl, Out.ok_bind, f.u8_ok hr.hi (by omega) _ (by omega), Out.ok_bind, f.u8_ok hr.ty (by omega) _ (by omega), Out.ok_bind, e, Out.ok_bind]
    simp only
    rw [if_neg (by omega), sid_ok (by omega)]
    have hb : ∃ b, f.u8 q = .ok b := by
      refine ⟨f.mem q, f.u8_ok (a := q) ?_ (by omega) _ rfl⟩
      unfold Has; simp [slice]
    obtain ⟨b, hb⟩ := hb
    rw [hb, Out.ok_bind]
    rcases hq with ⟨hx, -⟩ | ⟨hne, hq⟩
    · exact absurd hx.symm hns
    rw [if_neg (hq b hb), skipName_from hr.nm hgs.2 q1 q2 (by omega) hl, Out.ok_bind, if_neg (by omega)]
    have hnext : ∀ fuel (id' : Int), id' ≤ maxId → 2 * l.length < fuel → ∃ (fuel' : Nat) (id'' : Int), id'' ≤ maxId ∧ fuel ≤ fuel' + 2 * l.length ∧
        f.byNameSeq lim maxId name fuel id' (p + recLen s) = f.byNameSeq lim maxId name fuel' id'' (p + (recLen s + symsLen l)) := fun fuel id' h3 h4 => by
      have := byNameSeq_pass (maxId := maxId) hn hl l (p + recLen s) (k + 1) fuel id' h.2 (fun s' hs' => hg s' (List.mem_cons_of_mem _ hs')) (by omega) (by omega) (by omega) (by omega) h3 h4
      rwa [Nat.add_assoc] at this
    rcases (aa_next (s := s) hp).2 with ha | ⟨ha, hpad⟩
    · rw [ha]
      obtain ⟨f', i', h3, h4, h5⟩ := hnext n ((k : Int) + 1) (by omega) (by omega)
      exact ⟨f', i', h3, by omega, by rw [hG]; exact h5⟩
    · rw [ha]
      obtain ⟨n', rfl⟩ : ∃ n', n = n' + 1 := ⟨n - 1, by omega⟩
      have hz : ∀ i, p + 3 + s.name.length ≤ i → i < p + recLen s → Has f.mem i [0] := fun i i1 i2 => by
        unfold Has; simp [slice, hr.pad i i1 i2]
      unfold Img.byNameSeq
      rw [if_neg (by omega), f.u8_ok (hz _ (Nat.le_refl _) (by omega)) (by omega) _ (by omega), Out.ok_bind, f.u8_ok (hz (p + 3 + s.name.length + 1) (by omega) (by omega)) (by omega) _ (by omega),
        Out.ok_bind, f.u8_ok (hz (p + 3 + s.name.length + 2) (by omega) (by omega)) (by omega) _ (by omega), Out.ok_bind]
      obtain ⟨c, nm, hcn⟩ : ∃ c nm, name = c :: nm := by
        cases hname : name with
        | nil => exact absurd hname hn.1
        | cons c nm => exact ⟨c, nm, rfl⟩
      have hcmp : f.cmpName lim name (p + 3 + s.name.length + 3) = .ok (name, p + 3 + s.name.length + 3) := by
        rw [hcn]
        unfold Img.cmpName
        rw [if_neg (by omega), f.u8_ok (hz (p + 3 + s.name.length + 3) (by omega) (by omega)) (by omega) _ (by omega), Out.ok_bind,
          if_neg (fun h0 => hn.2.zero (by rw [hcn, h0]; exact List.mem_cons_self))]
        rfl
      rw [hcmp, Out.ok_bind]
      simp only
      rw [if_neg (by omega), f.u8_ok (hz (p + 3 + s.name.length + 3) (by omega) (by omega)) (by omega) _ (by omega), Out.ok_bind, if_neg (fun h0 => hn.1 h0.2)]
      obtain ⟨k', hk'⟩ : ∃ k', lim - (p + 3 + s.name.length + 3) = k' + 1 := ⟨lim - (p + 3 + s.name.length + 3) - 1, by omega⟩
      have hskip : f.skipName (lim - (p + 3 + s.name.length + 3)) (p + 3 + s.name.length + 3) = .ok (p + 3 + s.name.length + 3) := by
        rw [hk']
        unfold Img.skipName
        rw [f.u8_ok (hz (p + 3 + s.name.length + 3) (by omega) (by omega)) (by omega) _ (by omega), Out.ok_bind, if_pos rfl]; rfl
      rw [hskip, Out.ok_bind, if_neg (by omega), show aa (p + 3 + s.name.length + 3) = p + recLen s by unfold aa; omega]
      have : sid 0 0 = 0 := by decide
      obtain ⟨f', i', h3, h4, h5⟩ := hnext n' (sid 0 0 + 1) (by omega) (by omega)
      exact ⟨f', i', h3, by omega, by rw [hG]; exact h5⟩

/-- what the search finds at the record 128 -/
theorem byNameSeq_128 {f : Img} {lim p fuel : Nat} {maxId id : Int} {s : Sym} (hg : GoodName s.name) (hl : lim ≤ f.size) (h : Has f.mem p (encRec 128 s)) (h1 : p + recLen s ≤ lim) (hid : id ≤ maxId) (hf : 0 < fuel) :
    f.byNameSeq lim maxId s.name fuel id p = .ok (some ⟨-128, p, s.type.code⟩) := by
  obtain ⟨n, rfl⟩ : ∃ n, fuel = n + 1 := ⟨fuel - 1, by omega⟩
  have hr := recAt_of (by omega) h
  have hlen := recLen_ge s
  obtain ⟨r, q, e, q1, q2, hq⟩ := cmpName_ok s.name s.name (p + 3) hr.nm hg.2 hg.2 (lim := lim) (by omega) hl
  unfold Img.byNameSeq
  rw [if_neg (by omega), f.u8_ok hr.lo (by omega) _ rfl, Out.ok_bind, f.u8_ok hr.hi (by omega) _ (by omega), Out.ok_bind, f.u8_ok hr.ty (by omega) _ (by omega), Out.ok_bind, e, Out.ok_bind]
  simp only
  rw [if_neg (by omega), sid_128]
  rcases hq with ⟨-, rfl, rfl⟩ | ⟨hne, -⟩
  · rw [f.u8_ok (Has.append.1 hr.nm).2 (by omega) _ (by omega), Out.ok_bind, if_pos ⟨rfl, rfl⟩]; rfl
  · exact absurd rfl hne

theorem byNameSeq_end {f : Img} {p fuel : Nat} {maxId id : Int} {name : BStr} (hn : name ≠ []) (hl : p + 3 ≤ f.size) (hf : 0 < fuel) : f.byNameSeq p maxId name fuel id p = .ok none := by
  obtain ⟨n, rfl⟩ : ∃ n, fuel = n + 1 := ⟨fuel - 1, by omega⟩
  have hb : ∀ q, q < f.size → f.u8 q = .ok (f.mem q) := fun q hq => f.u8_ok (a := q) (by unfold Has; simp [slice]) (by omega) _ rfl
  unfold Img.byNameSeq
  by_cases h : maxId < id
  · rw [if_pos h]; rfl
  have e1 := hb p (by omega)
  have e2 := hb (p + 1) (by omega)
  have e3 : f.u8 ((p : Int) + 2) = .ok (f.mem (p + 2)) := hb (p + 2) (by omega)
  push_cast at e1 e2
  rw [if_neg h, e1, Out.ok_bind, e2, Out.ok_bind, e3, Out.ok_bind]
  obtain ⟨c, nm, rfl⟩ : ∃ c nm, name = c :: nm := by
    cases name with
    | nil => exact absurd rfl hn
    | cons c nm => exact ⟨c, nm, rfl⟩
  unfold Img.cmpName
  rw [if_pos (by omega), Out.pure_eq, Out.ok_bind]
  simp only
  rw [if_pos (by omega)]; rfl

/-- another name is not found at the record 128, the last -/
theorem byNameSeq_other {f : Img} {lim p fuel : Nat} {maxId id : Int} {s : Sym} {name : BStr} (hn : GoodName name) (hne : s.name ≠ name) (hg : GoodName s.name) (hl : lim + 3 ≤ f.size) (h : Has f.mem p (encRec 128 s)) (hp : p % 4 = 0) (h1 : p + recLen s = lim)
    (hid : id ≤ maxId) (hf : 3 ≤ fuel) : f.byNameSeq lim maxId name fuel id p = .ok none := by
  obtain ⟨n, rfl⟩ : ∃ n, fuel = n + 1 := ⟨fuel - 1, by omega⟩
  have hr := recAt_of (by omega) h
  have hlen := recLen_ge s
  obtain ⟨r, q, e, q1, q2, hq⟩ := cmpName_ok name s.name (p + 3) hr.nm hg.2 hn.2 (lim := lim) (by omega) (by omega)
  unfold Img.byNameSeq
  rw [if_neg (by omega), f.u8_ok hr.lo (by omega) _ rfl, Out.ok_bind, f.u8_ok hr.hi (by omega) _ (by omega), Out.ok_bind, f.u8_ok hr.ty (by omega) _ (by omega), Out.ok_bind, e, Out.ok_bind]
  simp only
  rw [if_neg (by omega), sid_128]
  have hb : ∃ b, f.u8 q = .ok b := by
    refine ⟨f.mem q, f.u8_ok (a := q) ?_ (by omega) _ rfl⟩
    unfold Has; simp [slice]
  obtain ⟨b, hb⟩ := hb
  rw [hb, Out.ok_bind]
  rcases hq with ⟨hx, -⟩ | ⟨-, hq⟩
  · exact absurd hx.symm hne
  rw [if_neg (hq b hb), skipName_from hr.nm hg.2 q1 q2 (by omega) (by omega), Out.ok_bind, if_neg (by omega)]
  rcases (aa_next (s := s) hp).2 with ha | ⟨ha, hpad⟩
  · rw [ha, ← h1]
    exact byNameSeq_end hn.1 (by omega) (by omega)
  · rw [ha]
    obtain ⟨n', rfl⟩ : ∃ n', n = n' + 1 := ⟨n - 1, by omega⟩
    have hz : ∀ i, p + 3 + s.name.length ≤ i → i < p + recLen s → Has f.mem i [0] := fun i i1 i2 => by
      unfold Has; simp [slice, hr.pad i i1 i2]
    unfold Img.byNameSeq
    by_cases hm : maxId < -128 + 1
    · rw [if_pos hm]; rfl
    rw [if_neg hm, f.u8_ok (hz _ (Nat.le_refl _) (by omega)) (by omega) _ (by omega), Out.ok_bind, f.u8_ok (hz (p + 3 + s.name.length + 1) (by omega) (by omega)) (by omega) _ (by omega),
      Out.ok_bind, f.u8_ok (hz (p + 3 + s.name.length + 2) (by omega) (by omega)) (by omega) _ (by omega), Out.ok_bind]
    obtain ⟨c, nm, hcn⟩ : ∃ c nm, name = c :: nm := by
      cases hname : name with
      | nil => exact absurd hname hn.1
      | cons c nm => exact ⟨c, nm, rfl⟩
    have hcmp : f.cmpName lim name (p + 3 + s.name.length + 3) = .ok (name, p + 3 + s.name.length + 3) := by
      rw [hcn]
      unfold Img.cmpName
      rw [if_neg (by omega), f.u8_ok (hz (p + 3 + s.name.length + 3) (by omega) (by omega)) (by omega) _ (by omega), Out.ok_bind,
        if_neg (fun h0 => hn.2.zero (by rw [hcn, h0]; exact List.mem_cons_self))]
      rfl
    rw [hcmp, Out.ok_bind]
    simp only
    rw [if_neg (by omega), f.u8_ok (hz (p + 3 + s.name.length + 3) (by omega) (by omega)) (by omega) _ (by omega), Out.ok_bind, if_neg (fun h0 => hn.1 h0.2)]
    obtain ⟨k', hk'⟩ : ∃ k', lim - (p + 3 + s.name.length + 3) = k' + 1 := ⟨lim - (p + 3 + s.name.length + 3) - 1, by omega⟩
    have hskip : f.skipName (lim - (p + 3 + s.name.length + 3)) (p + 3 + s.name.length + 3) = .ok (p + 3 + s.name.length + 3) := by
      rw [hk']
      unfold Img.skipName
      rw [f.u8_ok (hz (p + 3 + s.name.length + 3) (by omega) (by omega)) (by omega) _ (by omega), Out.ok_bind, if_pos rfl]; rfl
    rw [hskip, Out.ok_bind, if_neg (by omega), show aa (p + 3 + s.name.length + 3) = p + recLen s by unfold aa; omega, ← h1]
    exact byNameSeq_end hn.1 (by omega) (by omega)

/-- the size of the names ends before the record 128 -/
theorem namesLoop_over {f : Img} {lim : Nat} {maxId : Int} {x : Sym} (hl : lim ≤ f.size) : ∀ (l : List Sym) (p k fuel : Nat) (prev : Int),
    Has f.mem p (encSyms k (l ++ [x])) → (∀ s ∈ l, NoNul s.name) → p % 4 = 0 → p + symsLen (l ++ [x]) ≤ lim → maxId = 128 → k + l.length = 128 → prev = k - 1 → l.length < fuel →
    f.namesLoop lim maxId fuel k prev p = .ok (p + symsLen l, 127)
  | [], p, k, fuel, prev, h, hg, hp, h1, hm, h2, hpr, hf => by
    obtain ⟨n, rfl⟩ : ∃ n, fuel = n + 1 := ⟨fuel - 1, by omega⟩
    have : k = 128 := by simpa using h2
    subst this
    simp only [List.nil_append, encSyms, List.append_nil, symsLen] at h h1
    have hr := recAt_of (by omega) h
    have hlen := recLen_ge x
    unfold Img.namesLoop
    rw [if_neg (by omega), f.u8_ok hr.lo (by omega) _ rfl, Out.ok_bind, f.u8_ok hr.hi (by omega) _ (by omega), Out.ok_bind, sid_128, if_pos (by omega)]
    simp [symsLen]; omega
  | s :: l, p, k, fuel, prev, h, hg, hp, h1, hm, h2, hpr, hf => by
    obtain ⟨n, rfl⟩ : ∃ n, fuel = n + 1 := ⟨fuel - 1, by omega⟩
    simp only [List.length_cons] at h2 hf
    rw [List.cons_append, encSyms, Has.append, encRec_length] at h
    simp only [List.cons_append, symsLen] at h1
    have hr := recAt_of (by omega) h.1
    have hlen := recLen_ge s
    have hgs := hg s List.mem_cons_self
    unfold Img.namesLoop
    rw [if_neg (by omega), f.u8_ok hr.lo (by omega) _ rfl, Out.ok_bind, f.u8_ok hr.hi (by omega) _ (by omega), Out.ok_bind, sid_ok (by omega), if_neg (by omega),
      skipName_from hr.nm hgs (Nat.le_refl _) (by omega) (by omega) hl, Out.ok_bind, (aa_next hp).1]
    have := namesLoop_over (maxId := maxId) hl l (p + recLen s) (k + 1) n k h.2 (fun s' hs' => hg s' (List.mem_cons_of_mem _ hs')) (by omega) (by omega) (by omega) (by omega) (by omega) (by omega)
    refine Eq.trans this ?_
    simp only [symsLen]
    rw [Nat.add_assoc]

/-- the state after the 129th symbol has been registered -/
structure Over (Q : Pool) (l : List Sym) (x : Sym) : Prop where
  ok : PoolOk Q
  small : Q.mmapSize < 2147483648
  max : (Q.tab true).maxId = 128
  len : l.length = 128
  idx : (Q.tab true).index = 0
  slow : (Q.tab true).fast = false
  nz : (Q.tab true).names ≠ 0
  al : (Q.tab true).names % 4 = 0
  bound : (Q.tab true).names + symsLen (l ++ [x]) = Q.alloc
  has : Has Q.mem (Q.tab true).names (encSyms 0 (l ++ [x]))
  good : ∀ s ∈ l, GoodName s.name

theorem Over.parts {Q : Pool} {l : List Sym} {x : Sym} (h : Over Q l x) :
    Has Q.mem (Q.tab true).names (encSyms 0 l) ∧ Has Q.mem ((Q.tab true).names + symsLen l) (encRec 128 x) ∧ (Q.tab true).names + symsLen l + recLen x = Q.alloc := by
  have h1 := h.has
  rw [encSyms_append, Has.append, encSyms_length, h.len] at h1
  have h2 := h.bound
  rw [symsLen_append] at h2
  simp only [symsLen, Nat.zero_add] at h2
  have h3 := h1.2
  simp only [encSyms, List.append_nil, Nat.zero_add] at h3
  exact ⟨h1.1, h3, by omega⟩

theorem register_128 {P : Pool} (hP : PoolOk P) (hsm : P.mmapSize < 2147483648) {l : List Sym} (h : TabOk P (P.tab true) l) (hlen : l.length = 128) {name : BStr} {t : XBT} (hg : GoodName name)
    (hnew : ∀ s ∈ l, s.name ≠ name) (hroom : P.alloc + symsLen l + aa (name.length + 4) ≤ P.limit) :
    ∃ Q, P.register true name t = .ok (Q, 128) ∧ Over Q l ⟨name, t⟩ ∧ Q.limit = P.limit ∧ Q.alloc ≤ P.alloc + symsLen l + aa (name.length + 4) := by
  have hl : l ≠ [] := by rintro rfl; simp at hlen
  have hn := h.some hl
  have hst : P.startNames true = P := by unfold Pool.startNames; rw [if_neg hn]
  obtain ⟨Q, h1, h2, h3, -⟩ := open_ok hP hsm h hn (by omega) (Or.inl hl)
  obtain ⟨s1, s2, s3⟩ := open_spec hP h hn h1
  obtain ⟨t1, t2, t3, t4, t5⟩ := s3 rfl
  have hsz := s1.ok.size
  have hlim := s1.ok.lim
  have hge := aa_ge (name.length + 4)
  have hmax : (Q.tab true).maxId + 1 = 128 := by rw [t1.max]; omega
  have hfind : findRec name (P.tab true).names 0 l = none := by
    cases hf : findRec name (P.tab true).names 0 l with
    | none => rfl
    | some x =>
      obtain ⟨l1, s, l2, rfl, f2, -⟩ := findRec_some l hf
      exact absurd f2 (hnew s (by simp))
  unfold Pool.register
  rw [if_neg (by simp)]
  simp only
  rw [hst]
  have hlook : P.lookup true name = .ok none := by
    unfold Pool.lookup
    rw [if_neg (by rw [h.slow]; simp), getByName_ok hP hsm h hg, hfind]
  rw [hlook, Out.ok_bind]
  simp only
  rw [if_neg (by simp)]
  unfold Pool.addSymbol
  have hall := allocRoom_eq (P := Q) s1.ok (by rw [s1.map]; exact hsm) (size := name.length + 4) (by omega) (by omega) (3 + name.length + 1) (by omega)
  obtain ⟨st, st2, -, -⟩ := allocate_step s1.ok true hall
  rw [h1, Out.ok_bind, if_neg (by simp), hall, Out.ok_bind]
  simp only
  generalize hR : ({ Q with mem := memPut Q.mem Q.alloc (List.replicate (aa (name.length + 4)) 0), alloc := Q.alloc + aa (name.length + 4) } : Pool) = R at *
  have htab : R.tab true = Q.tab true := st2
  have hRm : R.mem = memPut Q.mem Q.alloc (List.replicate (aa (name.length + 4)) 0) := by rw [← hR]
  have hRa : R.alloc = Q.alloc + aa (name.length + 4) := by rw [← hR]
  have hRf : R.fileSize = Q.fileSize := by rw [← hR]
  have hRl : R.limit = Q.limit := by rw [← hR]
  rw [htab, hmax, Pool.wr_eq (a := Q.alloc) (by rw [symRecord_length, setTab_fileSize, hRf]; omega) _ rfl, Out.ok_bind]
  obtain ⟨n1, n2, n3, n4⟩ := t1.names t3
  have htab' : Pool.tab { R.setTab true { Q.tab true with maxId := 128 } with mem := memPut (R.setTab true { Q.tab true with maxId := 128 }).mem Q.alloc (symRecord 128 t name) } true = { Q.tab true with maxId := 128 } := rfl
  refine ⟨_, rfl, ⟨(st.ok.setTab true _).mem _, ?_, by rw [htab'], hlen, by rw [htab']; exact t2, by rw [htab']; exact t1.slow, by rw [htab']; exact t3, by rw [htab']; exact n2, ?_, ?_, h.good⟩, ?_, ?_⟩
  · show (R.setTab true { Q.tab true with maxId := 128 }).mmapSize < _
    rw [setTab_mmapSize, st.map, s1.map]; exact hsm
  · rw [htab']
    show _ = (R.setTab true { Q.tab true with maxId := 128 }).alloc
    rw [setTab_alloc, hRa, symsLen_append]
    simp only [symsLen, recLen]
    omega
  · rw [htab']
    show Has (memPut (R.setTab true { Q.tab true with maxId := 128 }).mem _ _) (Q.tab true).names _
    rw [setTab_mem, encSyms_append, Has.append, encSyms_length, t4]
    constructor
    · refine (n4.congr fun i _ i2 => ?_).frame (Or.inl (by rw [encSyms_length]; omega))
      rw [encSyms_length] at i2
      exact st.keep i (by omega)
    · rw [Nat.zero_add, hlen, encSyms, encSyms, List.append_nil]
      unfold encRec
      rw [Has.append]
      simp only
      refine ⟨Has.self _ _ _, ?_⟩
      rw [symRecord_length]
      refine Has.frame ?_ (Or.inr ?_)
      · rw [hRm]
        have hs := Has.self Q.mem Q.alloc (List.replicate (aa (name.length + 4)) 0)
        have : List.replicate (aa (name.length + 4)) (0 : UInt8) = List.replicate (name.length + 4) 0 ++ List.replicate (recLen ⟨name, t⟩ - (name.length + 4)) 0 := by
          rw [List.replicate_append_replicate]; congr 1; unfold recLen; simp only; omega
        rw [this, Has.append, List.length_replicate] at hs
        rw [this]; exact hs.2
      · rw [symRecord_length]; omega
  · show (R.setTab true { Q.tab true with maxId := 128 }).limit = _
    rw [setTab_limit, hRl]; exact h2
  · show (R.setTab true { Q.tab true with maxId := 128 }).alloc ≤ _
    rw [setTab_alloc, hRa]; omega

theorem Over.find {Q : Pool} {l : List Sym} {x : Sym} (h : Over Q l x) (hx : GoodName x.name) (hnew : ∀ s ∈ l, s.name ≠ x.name) :
    ∃ y, Q.getByName (Q.tab true) x.name = .ok (some y) ∧ y.id = -128 := by
  obtain ⟨h1, h2, h3⟩ := h.parts
  have hm := symsLen_mod l
  have hlen := h.len
  obtain ⟨fu, id, p1, p2, p3⟩ := byNameSeq_pass (f := Q.img) (lim := Q.alloc) (maxId := 128) hx h.ok.size l (Q.tab true).names 0 (Q.alloc + 4) 0 h1 (fun s hs => ⟨h.good s hs, hnew s hs⟩) h.al (by omega) (by omega) (by omega) (by omega) (by omega)
  unfold Pool.getByName
  rw [if_pos h.idx, h.max, p3, byNameSeq_128 hx h.ok.size h2 (by omega) p1 (by omega)]
  exact ⟨_, rfl, rfl⟩

theorem Over.again {Q : Pool} {l : List Sym} {x : Sym} (h : Over Q l x) (hx : GoodName x.name) {name : BStr} {t : XBT} (hg : GoodName name) (hne : x.name ≠ name) (hnew : ∀ s ∈ l, s.name ≠ name)
    (hroom : Q.alloc + symsLen l + aa (name.length + 4) ≤ Q.limit) : ∃ R, Q.register true name t = .ok (R, 128) := by
  obtain ⟨h1, h2, h3⟩ := h.parts
  have hm := symsLen_mod l
  have hlen := h.len
  have hsz := h.ok.size
  have hlim := h.ok.lim
  have hge := aa_ge (name.length + 4)
  have hst : Q.startNames true = Q := by unfold Pool.startNames; rw [if_neg h.nz]
  obtain ⟨fu, id, p1, p2, p3⟩ := byNameSeq_pass (f := Q.img) (lim := Q.alloc) (maxId := 128) hg h.ok.size l (Q.tab true).names 0 (Q.alloc + 4) 0 h1 (fun s hs => ⟨h.good s hs, hnew s hs⟩) h.al (by omega) (by omega) (by omega) (by omega) (by omega)
  have hlook : Q.lookup true name = .ok none := by
    unfold Pool.lookup Pool.getByName
    rw [if_neg (by rw [h.slow]; simp), if_pos h.idx, h.max, p3]
    exact byNameSeq_other hg hne hx (by show _ ≤ Q.fileSize; omega) h2 (by have := h.al; omega) h3 p1 (by omega)
  unfold Pool.register
  rw [if_neg (by simp)]
  simp only
  rw [hst, hlook, Out.ok_bind]
  simp only
  rw [if_neg (by simp)]
  have hns : Q.namesSize (Q.tab true) = .ok (symsLen l, { Q.tab true with maxId := 127 }) := by
    unfold Pool.namesSize
    rw [if_neg h.nz]
    have := namesLoop_over (f := Q.img) (lim := Q.alloc) (maxId := (Q.tab true).maxId) h.ok.size l (Q.tab true).names 0 (Q.alloc + 4) (-1) h.has (fun s hs => (h.good s hs).2) h.al (by rw [h.bound]; exact Nat.le_refl _) h.max (by omega) (by omega) (by omega)
    rw [show ((0 : Nat) : Int) = 0 from rfl] at this
    rw [this, Out.ok_bind]
    simp
  have haa : aa (symsLen l) = symsLen l := aa_of_mod hm.1
  have hrec := recLen_ge x
  have hopen : ∃ S, Q.open' true = .ok (S, true) ∧ PoolOk S ∧ S.mmapSize < 2147483648 ∧ S.limit = Q.limit ∧ S.alloc = Q.alloc + symsLen l ∧ (S.tab true).maxId = 127 := by
    unfold Pool.open'
    rw [hns, Out.ok_bind]
    simp only
    rw [if_neg (by rw [setTab_alloc]; omega)]
    have hok : PoolOk (Q.setTab true { Q.tab true with maxId := 127 }) := h.ok.setTab true _
    have hall := allocRoom_eq (P := Q.setTab true { Q.tab true with maxId := 127 }) hok (by rw [setTab_mmapSize]; exact h.small) (size := symsLen l) (by omega) (by rw [setTab_alloc, setTab_limit]; omega) _ rfl
    obtain ⟨st, -⟩ := allocate_step hok true hall
    rw [hall, Out.ok_bind]
    simp only [setTab_alloc, setTab_mem] at st ⊢
    unfold Pool.copy
    have hsrc : Has (memPut Q.mem Q.alloc (List.replicate (aa (symsLen l)) 0)) (Q.tab true).names (encSyms 0 l) := h1.frame (Or.inl (by rw [encSyms_length]; omega))
    rw [rd_eq (f := Pool.img { Q.setTab true { Q.tab true with maxId := 127 } with mem := memPut Q.mem Q.alloc (List.replicate (aa (symsLen l)) 0), alloc := Q.alloc + aa (symsLen l) }) hsrc (encSyms_length l 0) (by show _ ≤ Q.fileSize; omega), Out.ok_bind,
      Pool.wr_eq (a := Q.alloc) (by rw [encSyms_length]; show _ ≤ Q.fileSize; omega) _ rfl, Out.ok_bind]
    refine ⟨_, rfl, (st.ok.mem _).setTab true _, ?_, ?_, ?_, ?_⟩
    · rw [setTab_mmapSize]; exact h.small
    · rw [setTab_limit]; rfl
    · rw [setTab_alloc, haa]
    · rw [setTab_tab]
  obtain ⟨S, o1, o2, o3, o4, o5, o6⟩ := hopen
  have hsz' := o2.size
  have hlim' := o2.lim
  unfold Pool.addSymbol
  have hall := allocRoom_eq (P := S) o2 o3 (size := name.length + 4) (by omega) (by omega) (3 + name.length + 1) (by omega)
  obtain ⟨st, st2, -, -⟩ := allocate_step o2 true hall
  rw [o1, Out.ok_bind, if_neg (by simp), hall, Out.ok_bind]
  simp only
  rw [st2, o6, Pool.wr_eq (a := S.alloc) (by rw [symRecord_length, setTab_fileSize]; show _ ≤ S.fileSize; omega) _ rfl, Out.ok_bind]
  exact ⟨_, rfl⟩

end BX
