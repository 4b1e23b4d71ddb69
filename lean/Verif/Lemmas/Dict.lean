import Verif.Lemmas.Make
import Verif.Model.Dict
import Verif.Spec.Dict
/-
The records of a symbol table in memory.
-/
namespace BX
open XBT Spec

/-- size of a record -/
def recLen (s : Sym) : Nat := aa (s.name.length + 4)
/-- bytes of the record of symbol `k` -/
def encRec (k : Nat) (s : Sym) : List UInt8 := symRecord k s.type s.name ++ List.replicate (recLen s - (s.name.length + 4)) 0
/-- bytes of the records from symbol `k` on -/
def encSyms : Nat → List Sym → List UInt8
  | _, [] => []
  | k, s :: l => encRec k s ++ encSyms (k + 1) l
/-- their size -/
def symsLen : List Sym → Nat
  | [] => 0
  | s :: l => recLen s + symsLen l
/-- bytes of the index of records that begin at `p` -/
def encIdx : Nat → List Sym → List UInt8
  | _, [] => []
  | p, s :: l => le32 p ++ encIdx (p + recLen s) l
/-- the offset of record `i` of records that begin at `p` -/
def recAt (p : Nat) (l : List Sym) (i : Nat) : Nat := p + symsLen (l.take i)

/-- a name that can be stored and found: not empty and without ASCII NUL -/
def GoodName (n : BStr) : Prop := n ≠ [] ∧ NoNul n

theorem NoNul.zero {s : BStr} (h : NoNul s) : (0 : UInt8) ∉ s := fun h' => h 0 h' rfl

theorem recLen_ge (s : Sym) : s.name.length + 4 ≤ recLen s ∧ recLen s % 4 = 0 ∧ recLen s < s.name.length + 8 :=
  ⟨aa_ge _, aa_mod _, by have := aa_lt (s.name.length + 4); unfold recLen; omega⟩

theorem symRecord_length (k : Int) (t : XBT) (n : BStr) : (symRecord k t n).length = n.length + 4 := by
  unfold symRecord; simp [leN_length]; omega
theorem encRec_length (k : Nat) (s : Sym) : (encRec k s).length = recLen s := by
  unfold encRec
  rw [List.length_append, symRecord_length, List.length_replicate]
  have := recLen_ge s; omega
theorem encSyms_length : ∀ (l : List Sym) (k : Nat), (encSyms k l).length = symsLen l
  | [], _ => rfl
  | s :: l, k => by rw [encSyms, List.length_append, encRec_length, encSyms_length l, symsLen]
theorem encIdx_length : ∀ (l : List Sym) (p : Nat), (encIdx p l).length = 4 * l.length
  | [], _ => rfl
  | s :: l, p => by rw [encIdx, List.length_append, encIdx_length l, List.length_cons]; simp; omega
theorem symsLen_append (l m : List Sym) : symsLen (l ++ m) = symsLen l + symsLen m := by
  induction l with
  | nil => simp [symsLen]
  | cons s l ih => simp [symsLen, ih]; omega
theorem encSyms_append : ∀ (l m : List Sym) (k : Nat), encSyms k (l ++ m) = encSyms k l ++ encSyms (k + l.length) m
  | [], m, k => rfl
  | s :: l, m, k => by
    rw [List.cons_append, encSyms, encSyms, encSyms_append l m, List.append_assoc, List.length_cons, show k + 1 + l.length = k + (l.length + 1) by omega]
theorem symsLen_mod : ∀ l : List Sym, symsLen l % 4 = 0 ∧ 8 * l.length ≤ symsLen l + 4 * l.length
  | [] => ⟨rfl, Nat.le_refl _⟩
  | s :: l => by
    have := symsLen_mod l; have := recLen_ge s
    simp only [symsLen, List.length_cons]; omega

/-- what a record looks like -/
structure RecAt (m : Mem) (p k : Nat) (s : Sym) : Prop where
  lo : Has m p [UInt8.ofNat k]
  hi : Has m (p + 1) [UInt8.ofNat (k / 256)]
  id : Has m p (leN 2 (toU 16 k))
  ty : Has m (p + 2) [s.type.code]
  nm : Has m (p + 3) (s.name ++ [0])
  pad : ∀ i, p + 3 + s.name.length ≤ i → i < p + recLen s → m i = 0

theorem recAt_of {m : Mem} {p k : Nat} {s : Sym} (hk : k < 65536) (h : Has m p (encRec k s)) : RecAt m p k s := by
  unfold encRec symRecord at h
  simp only [Has.append, List.length_append, leN_length, List.length_cons, List.length_nil, List.length_replicate] at h
  obtain ⟨⟨⟨⟨h1, h2⟩, h3⟩, h4⟩, h5⟩ := h
  have ht : toU 16 (k : Int) = k := by unfold toU; omega
  have h1' : Has m p ([UInt8.ofNat k] ++ [UInt8.ofNat (k / 256)]) := by rw [ht] at h1; simpa [leN] using h1
  rw [Has.append] at h1'
  refine ⟨h1'.1, h1'.2, h1, h2, ?_, ?_⟩
  · rw [Has.append]; exact ⟨h3, by rw [show p + 3 + s.name.length = p + (2 + (0 + 1) + s.name.length) by omega]; exact h4⟩
  · intro i i1 i2
    by_cases hi : i = p + 3 + s.name.length
    · have := h4.get 0 (by simp)
      rw [show i = p + (2 + (0 + 1) + s.name.length) + 0 by omega]
      exact this
    · have := h5.get (i - (p + 4 + s.name.length)) (by simp; omega)
      rw [show i = p + (2 + (0 + 1) + s.name.length + (0 + 1)) + (i - (p + 4 + s.name.length)) by omega, this]
      simp

/-- the identification as read with signed characters -/
theorem sid_ok {k : Nat} (h : k < 128) : sid (UInt8.ofNat k) (UInt8.ofNat (k / 256)) = k := by
  have h2 : k / 256 = 0 := by omega
  rw [h2]
  unfold sid
  have : (UInt8.ofNat k).toNat = k := by simp; omega
  rw [this, if_pos h]
  simp

theorem sid_128 : sid (UInt8.ofNat 128) (UInt8.ofNat (128 / 256)) = -128 := by decide

theorem Has.tail {m : Mem} {p : Nat} {c : UInt8} {l : List UInt8} (h : Has m p (c :: l)) : Has m p [c] ∧ Has m (p + 1) l := by
  have : Has m p ([c] ++ l) := h
  rw [Has.append] at this
  exact this

/-- comparing a name with the name stored at `p` -/
theorem cmpName_ok {f : Img} {lim : Nat} : ∀ (n s : BStr) (p : Nat), Has f.mem p (s ++ [0]) → NoNul s → NoNul n → p + s.length + 1 ≤ lim → lim ≤ f.size →
    ∃ r q, f.cmpName lim n p = .ok (r, q) ∧ p ≤ q ∧ q ≤ p + s.length ∧
      ((n = s ∧ r = [] ∧ q = p + s.length) ∨ (n ≠ s ∧ ∀ b, f.u8 q = .ok b → ¬ (b = 0 ∧ r = [])))
  | [], [], p, h, hs, hn, h1, h2 => ⟨[], p, rfl, Nat.le_refl _, Nat.le_add_right _ _, Or.inl ⟨rfl, rfl, rfl⟩⟩
  | [], c :: s, p, h, hs, hn, h1, h2 => by
    refine ⟨[], p, rfl, Nat.le_refl _, Nat.le_add_right _ _, Or.inr ⟨by simp, fun b hb => ?_⟩⟩
    have hc := (Has.tail h).1
    rw [f.u8_ok hc (by simp at h1; omega) _ rfl] at hb
    simp only [Out.ok.injEq] at hb
    rintro ⟨h0, -⟩
    exact hs.zero (by rw [← hb] at h0; rw [h0]; exact List.mem_cons_self)
  | c :: n, [], p, h, hs, hn, h1, h2 => by
    have hc : Has f.mem p [0] := h
    refine ⟨c :: n, p, ?_, Nat.le_refl _, Nat.le_add_right _ _, Or.inr ⟨by simp, fun b hb => by simp⟩⟩
    unfold Img.cmpName
    rw [if_neg (by simp at h1; omega), f.u8_ok hc (by simp at h1; omega) _ rfl, Out.ok_bind, if_neg (fun h0 => hn.zero (by rw [h0]; exact List.mem_cons_self))]
    rfl
  | c :: n, d :: s, p, h, hs, hn, h1, h2 => by
    obtain ⟨hd, ht⟩ := Has.tail h
    simp only [List.length_cons] at h1
    unfold Img.cmpName
    rw [if_neg (by omega), f.u8_ok hd (by omega) _ rfl, Out.ok_bind]
    by_cases hcd : c = d
    · rw [if_pos hcd]
      obtain ⟨r, q, e, q1, q2, hq⟩ := cmpName_ok n s (p + 1) ht (fun x hx => hs x (List.mem_cons_of_mem _ hx)) (fun x hx => hn x (List.mem_cons_of_mem _ hx)) (by omega) h2
      refine ⟨r, q, e, by omega, by simp; omega, ?_⟩
      rcases hq with ⟨rfl, e2, e3⟩ | ⟨e2, e3⟩
      · exact Or.inl ⟨by rw [hcd], e2, by simp; omega⟩
      · exact Or.inr ⟨fun h' => e2 (by simp at h'; exact h'.2), e3⟩
    · rw [if_neg hcd]
      exact ⟨c :: n, p, rfl, Nat.le_refl _, by simp, Or.inr ⟨fun h' => hcd (by simp at h'; exact h'.1), fun b hb => by simp⟩⟩

/-- going to the end of the name that ends at `e` -/
theorem skipName_ok {f : Img} {s : BStr} : ∀ (d k p e : Nat), e = p + d → Has f.mem p (s.drop (s.length - d) ++ [0]) → d ≤ s.length → NoNul s → d < k → e + 1 ≤ f.size → f.skipName k p = .ok e
  | 0, k + 1, p, e, he, h, hd, hs, hk, h2 => by
    rw [Nat.sub_zero, List.drop_length, List.nil_append] at h
    unfold Img.skipName
    rw [f.u8_ok h (by omega) _ rfl, Out.ok_bind, if_pos rfl, he]; rfl
  | d + 1, k + 1, p, e, he, h, hd, hs, hk, h2 => by
    have hlt : s.length - (d + 1) < s.length := by omega
    rw [List.drop_eq_getElem_cons hlt, List.cons_append] at h
    obtain ⟨h3, h4⟩ := Has.tail h
    rw [show s.length - (d + 1) + 1 = s.length - d by omega] at h4
    unfold Img.skipName
    rw [f.u8_ok h3 (by omega) _ rfl, Out.ok_bind, if_neg (fun h0 => hs.zero (by rw [← h0]; exact List.getElem_mem _))]
    exact skipName_ok d k (p + 1) e (by omega) h4 (by omega) hs (by omega) h2

/-- from any place inside of a stored name -/
theorem skipName_from {f : Img} {s : BStr} {p q lim : Nat} (h : Has f.mem p (s ++ [0])) (hs : NoNul s) (h1 : p ≤ q) (h2 : q ≤ p + s.length) (h3 : p + s.length + 1 ≤ lim) (h4 : lim ≤ f.size) :
    f.skipName (lim - q) q = .ok (p + s.length) := by
  refine skipName_ok (s := s) (p + s.length - q) (lim - q) q _ (by omega) ?_ (by omega) hs (by omega) (by omega)
  have : s ++ [0] = s.take (q - p) ++ (s.drop (q - p) ++ [0]) := by rw [← List.append_assoc, List.take_append_drop]
  rw [this, Has.append] at h
  have := h.2
  rw [List.length_take, show p + min (q - p) s.length = q by omega] at this
  rwa [show s.length - (p + s.length - q) = q - p by omega]

/-- what the search for a name gives -/
def findRec (name : BStr) : Nat → Nat → List Sym → Option Found
  | _, _, [] => none
  | p, k, s :: l => if s.name = name then some ⟨k, p, s.type.code⟩ else findRec name (p + recLen s) (k + 1) l

theorem aa_next {p : Nat} {s : Sym} (hp : p % 4 = 0) :
    aa (p + 3 + s.name.length + 1) = p + recLen s ∧ (aa (p + 3 + s.name.length) = p + recLen s ∨ (aa (p + 3 + s.name.length) = p + 3 + s.name.length ∧ p + recLen s = p + 3 + s.name.length + 4)) := by
  unfold recLen aa; omega

/-- the sequential search -/
theorem byNameSeq_ok {f : Img} {lim : Nat} {maxId : Int} {name : BStr} (hn : GoodName name) (hl : lim ≤ f.size) : ∀ (l : List Sym) (p k fuel : Nat) (id : Int),
    Has f.mem p (encSyms k l) → (∀ s ∈ l, GoodName s.name) → p % 4 = 0 → p + symsLen l ≤ lim → maxId = k + l.length - 1 → k + l.length ≤ 128 → (if l = [] then id = k else id ≤ maxId) → 2 * l.length < fuel →
    f.byNameSeq lim maxId name fuel id p = .ok (findRec name p k l)
  | [], p, k, fuel, id, h, hg, hp, h1, hm, h2, hid, hf => by
    obtain ⟨n, rfl⟩ : ∃ n, fuel = n + 1 := ⟨fuel - 1, by omega⟩
    rw [if_pos rfl] at hid
    simp only [List.length_nil] at hm
    unfold Img.byNameSeq
    rw [if_pos (by omega)]; rfl
  | s :: l, p, k, fuel, id, h, hg, hp, h1, hm, h2, hid, hf => by
    obtain ⟨n, rfl⟩ : ∃ n, fuel = n + 1 := ⟨fuel - 1, by omega⟩
    rw [if_neg (by simp)] at hid
    simp only [List.length_cons] at hm h2 hf
    rw [encSyms, Has.append, encRec_length] at h
    simp only [symsLen] at h1
    have hr := recAt_of (by omega) h.1
    have hlen := recLen_ge s
    have hgs := hg s List.mem_cons_self
    obtain ⟨r, q, e, q1, q2, hq⟩ := cmpName_ok name s.name (p + 3) hr.nm hgs.2 hn.2 (lim := lim) (by omega) hl
    unfold Img.byNameSeq
    rw [if_neg (by omega), f.u8_ok hr.lo (by omega) _ rfl, Out.ok_bind, f.u8_ok hr.hi (by omega) _ (by omega), Out.ok_bind, f.u8_ok hr.ty (by omega) _ (by omega), Out.ok_bind, e, Out.ok_bind]
    simp only
    rw [if_neg (by omega), sid_ok (by omega)]
    have hb : ∃ b, f.u8 q = .ok b := by
      refine ⟨f.mem q, f.u8_ok (a := q) ?_ (by omega) _ rfl⟩
      unfold Has; simp [slice]
    obtain ⟨b, hb⟩ := hb
    rw [hb, Out.ok_bind]
    unfold findRec
    rcases hq with ⟨rfl, rfl, rfl⟩ | ⟨hne, hq⟩
    · rw [if_pos rfl]
      have : b = 0 := by
        have h0 := (Has.append.1 hr.nm).2
        rw [f.u8_ok h0 (by omega) _ rfl] at hb
        simp only [Out.ok.injEq] at hb
        exact hb.symm
      rw [if_pos ⟨this, rfl⟩]; rfl
    · rw [if_neg (hq b hb), if_neg (fun h' => hne h'.symm), skipName_from hr.nm hgs.2 q1 q2 (by omega) hl, Out.ok_bind, if_neg (by omega)]
      have hnext : ∀ fuel (id' : Int), (if l = [] then id' = ((k + 1 : Nat) : Int) else id' ≤ maxId) → 2 * l.length < fuel →
          f.byNameSeq lim maxId name fuel id' (p + recLen s) = .ok (findRec name (p + recLen s) (k + 1) l) := fun fuel id' h3 h4 =>
        byNameSeq_ok hn hl l (p + recLen s) (k + 1) fuel id' h.2 (fun s' hs' => hg s' (List.mem_cons_of_mem _ hs')) (by omega) (by omega) (by omega) (by omega) h3 h4
      have hkid : (if l = [] then ((k : Int) + 1) = ((k + 1 : Nat) : Int) else ((k : Int) + 1) ≤ maxId) := by
        split
        · omega
        · rename_i hne'
          have : 0 < l.length := List.length_pos_iff.2 hne'
          omega
      rcases (aa_next (s := s) hp).2 with ha | ⟨ha, hpad⟩
      · rw [ha]
        exact hnext n _ hkid (by omega)
      · rw [ha]
        -- four zero bytes are taken for a record without a name
        obtain ⟨n', rfl⟩ : ∃ n', n = n' + 1 := ⟨n - 1, by omega⟩
        have hz : ∀ i, p + 3 + s.name.length ≤ i → i < p + recLen s → Has f.mem i [0] := fun i i1 i2 => by
          unfold Has; simp [slice, hr.pad i i1 i2]
        by_cases hlast : l = []
        · subst hlast
          unfold Img.byNameSeq
          rw [if_pos (by simp at hm; omega)]; rfl
        · have hpos : 0 < l.length := List.length_pos_iff.2 hlast
          unfold Img.byNameSeq
          rw [if_neg (by omega), f.u8_ok (hz _ (Nat.le_refl _) (by omega)) (by omega) _ (by omega), Out.ok_bind, f.u8_ok (hz (p + 3 + s.name.length + 1) (by omega) (by omega)) (by omega) _ (by omega),
            Out.ok_bind, f.u8_ok (hz (p + 3 + s.name.length + 2) (by omega) (by omega)) (by omega) _ (by omega), Out.ok_bind]
          obtain ⟨c, nm, hcn⟩ : ∃ c nm, name = c :: nm := by
            cases hname : name with
            | nil => exact absurd hname hn.1
            | cons c nm => exact ⟨c, nm, rfl⟩
          have hcmp : f.cmpName lim name (p + 3 + s.name.length + 3) = .ok (name, p + 3 + s.name.length + 3) := by
            rw [hcn]
            unfold Img.cmpName
            rw [if_neg (by omega), f.u8_ok (hz (p + 3 + s.name.length + 3) (by omega) (by omega)) (by omega) _ (by omega), Out.ok_bind,
              if_neg (fun h0 => hn.2.zero (by rw [hcn, h0]; exact List.mem_cons_self))]
            rfl
          rw [hcmp, Out.ok_bind]
          simp only
          rw [if_neg (by omega), f.u8_ok (hz (p + 3 + s.name.length + 3) (by omega) (by omega)) (by omega) _ (by omega), Out.ok_bind, if_neg (fun h0 => hn.1 h0.2)]
          obtain ⟨k', hk'⟩ : ∃ k', lim - (p + 3 + s.name.length + 3) = k' + 1 := ⟨lim - (p + 3 + s.name.length + 3) - 1, by omega⟩
          have hskip : f.skipName (lim - (p + 3 + s.name.length + 3)) (p + 3 + s.name.length + 3) = .ok (p + 3 + s.name.length + 3) := by
            rw [hk']
            unfold Img.skipName
            rw [f.u8_ok (hz (p + 3 + s.name.length + 3) (by omega) (by omega)) (by omega) _ (by omega), Out.ok_bind, if_pos rfl]; rfl
          rw [hskip, Out.ok_bind, if_neg (by omega), show aa (p + 3 + s.name.length + 3) = p + recLen s by unfold aa; omega]
          refine hnext n' _ ?_ (by omega)
          rw [if_neg hlast]
          have : sid 0 0 = 0 := by decide
          omega

/-- looking for an identification -/
theorem byIdSeq_ok {f : Img} {lim : Nat} {maxId : Int} (hl : lim ≤ f.size) : ∀ (l : List Sym) (p k fuel i : Nat),
    Has f.mem p (encSyms k l) → (∀ s ∈ l, NoNul s.name) → p % 4 = 0 → p + symsLen l ≤ lim → maxId = k + l.length - 1 → k + l.length ≤ 128 → i < l.length → l.length < fuel →
    f.byIdSeq lim maxId (k + i : Nat) fuel k p = .ok (some (recAt p l i))
  | [], p, k, fuel, i, h, hg, hp, h1, hm, h2, hi, hf => by simp at hi
  | s :: l, p, k, fuel, i, h, hg, hp, h1, hm, h2, hi, hf => by
    obtain ⟨n, rfl⟩ : ∃ n, fuel = n + 1 := ⟨fuel - 1, by omega⟩
    simp only [List.length_cons] at hm h2 hi hf
    rw [encSyms, Has.append, encRec_length] at h
    simp only [symsLen] at h1
    have hr := recAt_of (by omega) h.1
    have hlen := recLen_ge s
    have hgs := hg s List.mem_cons_self
    unfold Img.byIdSeq
    rw [if_neg (by omega), f.u8_ok hr.lo (by omega) _ rfl, Out.ok_bind, f.u8_ok hr.hi (by omega) _ (by omega), Out.ok_bind, sid_ok (by omega)]
    cases i with
    | zero => rw [if_pos (by simp)]; rfl
    | succ i =>
      rw [if_neg (by omega), skipName_from hr.nm hgs (Nat.le_refl _) (by omega) (by omega) hl, Out.ok_bind, if_neg (by omega), (aa_next hp).1]
      have := byIdSeq_ok (maxId := maxId) hl l (p + recLen s) (k + 1) n i h.2 (fun s' hs' => hg s' (List.mem_cons_of_mem _ hs')) (by omega) (by omega) (by omega) (by omega) (by omega) (by omega)
      rw [show k + (i + 1) = k + 1 + i by omega]
      refine Eq.trans this ?_
      unfold recAt
      simp [symsLen]; omega

/-- the size of the names -/
theorem namesLoop_ok {f : Img} {lim : Nat} {maxId : Int} (hl : lim ≤ f.size) : ∀ (l : List Sym) (p k fuel : Nat) (prev : Int),
    Has f.mem p (encSyms k l) → (∀ s ∈ l, NoNul s.name) → p % 4 = 0 → p + symsLen l ≤ lim → maxId = k + l.length - 1 → k + l.length ≤ 128 → prev = k - 1 → l.length < fuel →
    f.namesLoop lim maxId fuel k prev p = .ok (p + symsLen l, maxId)
  | [], p, k, fuel, prev, h, hg, hp, h1, hm, h2, hpr, hf => by
    obtain ⟨n, rfl⟩ : ∃ n, fuel = n + 1 := ⟨fuel - 1, by omega⟩
    simp only [List.length_nil] at hm
    unfold Img.namesLoop
    rw [if_pos (by omega)]; rfl
  | s :: l, p, k, fuel, prev, h, hg, hp, h1, hm, h2, hpr, hf => by
    obtain ⟨n, rfl⟩ : ∃ n, fuel = n + 1 := ⟨fuel - 1, by omega⟩
    simp only [List.length_cons] at hm h2 hf
    rw [encSyms, Has.append, encRec_length] at h
    simp only [symsLen] at h1
    have hr := recAt_of (by omega) h.1
    have hlen := recLen_ge s
    have hgs := hg s List.mem_cons_self
    unfold Img.namesLoop
    rw [if_neg (by omega), f.u8_ok hr.lo (by omega) _ rfl, Out.ok_bind, f.u8_ok hr.hi (by omega) _ (by omega), Out.ok_bind, sid_ok (by omega), if_neg (by omega),
      skipName_from hr.nm hgs (Nat.le_refl _) (by omega) (by omega) hl, Out.ok_bind, (aa_next hp).1]
    have := namesLoop_ok (maxId := maxId) hl l (p + recLen s) (k + 1) n k h.2 (fun s' hs' => hg s' (List.mem_cons_of_mem _ hs')) (by omega) (by omega) (by omega) (by omega) (by omega) (by omega)
    refine Eq.trans this ?_
    simp only [symsLen]
    rw [Nat.add_assoc]

/-- the search using the index -/
theorem byNameIdx_ok {f : Img} {index : Nat} {name : BStr} : ∀ (l : List Sym) (p k : Nat),
    Has f.mem p (encSyms k l) → (∀ s ∈ l, NoNul s.name) → p + symsLen l ≤ f.size → f.size < 2147483648 → k + l.length ≤ 65536 → Has f.mem (index + 4 * k) (encIdx p l) → index + 4 * (k + l.length) ≤ f.size →
    f.byNameIdx index name l.length k = .ok (findRec name p k l)
  | [], p, k, h, hg, h1, h2, h3, h4, h5 => rfl
  | s :: l, p, k, h, hg, h1, h2, h3, h4, h5 => by
    simp only [List.length_cons] at h3 h5
    rw [encSyms, Has.append, encRec_length] at h
    simp only [symsLen] at h1
    have hr := recAt_of (by omega) h.1
    have hlen := recLen_ge s
    have hgs := hg s List.mem_cons_self
    rw [encIdx, Has.append, show (le32 (p : Int)).length = 4 by simp] at h4
    unfold Img.byNameIdx
    rw [List.length_cons]
    simp only
    rw [f.i32_ok h4.1 (by omega) (isI32_of_lt (by omega)) _ (by omega), Out.ok_bind, f.str_ok hr.nm hgs (by omega) _ (by omega), Out.ok_bind]
    unfold findRec
    split
    · rw [f.u8_ok hr.ty (by omega) _ (by omega)]; rfl
    · exact byNameIdx_ok l (p + recLen s) (k + 1) h.2 (fun s' hs' => hg s' (List.mem_cons_of_mem _ hs')) (by omega) h2 (by omega) (by rw [show index + 4 * (k + 1) = index + 4 * k + 4 by omega]; exact h4.2) (by omega)

end BX
