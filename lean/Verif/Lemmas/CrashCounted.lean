import Verif.Lemmas.CrashRegister
import Verif.Lemmas.RegisterId
/-
A table that counts one symbol more than it has.
-/
namespace BX
open XBT Spec

/-! ### other tables do not matter -/

theorem makeSpace_setTab (E : Env) (P : Pool) (b : Bool) (T : Tab16) (n : Nat) : (P.setTab b T).makeSpace E n = (P.makeSpace E n).bind fun r => .ok (r.1.setTab b T, r.2) := by
  unfold Pool.makeSpace
  simp only [setTab_alloc, setTab_mmapSize, setTab_fileSize, setTab_mem]
  split
  · rfl
  · split
    · rfl
    · split
      · rfl
      · split
        · rfl
        · cases b <;> rfl

theorem wr_setTab (P : Pool) (b : Bool) (T : Tab16) (a : Int) (bs : List UInt8) : (P.setTab b T).wr a bs = (P.wr a bs).bind fun Q => .ok (Q.setTab b T) := by
  unfold Pool.wr
  simp only [setTab_fileSize, setTab_mem]
  split
  · rfl
  · cases put P.fileSize P.mem a.toNat bs with
    | ok m => cases b <;> rfl
    | fail => rfl
    | ub => rfl

theorem namesSize_setTab (P : Pool) (b : Bool) (T X : Tab16) : (P.setTab b T).namesSize X = P.namesSize X := by
  unfold Pool.namesSize
  rw [setTab_img, setTab_alloc]

theorem indexLoop_setTab {maxId : Int} {ix stop : Nat} (b : Bool) (T : Tab16) : ∀ (n : Nat) (P : Pool) (start : Nat),
    Pool.indexLoop maxId ix stop n (P.setTab b T) start = (Pool.indexLoop maxId ix stop n P start).bind fun r => .ok (r.1.setTab b T, r.2)
  | 0, P, start => rfl
  | n+1, P, start => by
    unfold Pool.indexLoop
    rw [setTab_img]
    split
    · rfl
    · cases P.img.i16 start with
      | fail => rfl
      | ub => rfl
      | ok id =>
        rw [Out.ok_bind, Out.ok_bind]
        split
        · rfl
        · rw [wr_setTab]
          cases P.wr (ix + 4 * id) (le32 start) with
          | fail => rfl
          | ub => rfl
          | ok Q =>
            show ((Out.ok (Q.setTab b T) : Out Pool) >>= _) = ((Out.ok Q : Out Pool) >>= _).bind _
            rw [Out.ok_bind, Out.ok_bind, setTab_img]
            cases Q.img.str (start + 3) with
            | fail => rfl
            | ub => rfl
            | ok s => exact indexLoop_setTab b T n Q _

theorem setTab_comm (P : Pool) {b c : Bool} (h : c ≠ b) (T X : Tab16) : (P.setTab b T).setTab c X = (P.setTab c X).setTab b T := by
  cases b <;> cases c <;> first | rfl | exact absurd rfl h

theorem setTab_twice (P : Pool) (b : Bool) (T X : Tab16) : (P.setTab b T).setTab b X = P.setTab b X := by cases b <;> rfl

theorem makeTable_setTab (P : Pool) {b c : Bool} (h : c ≠ b) (T : Tab16) : (P.setTab b T).makeTable c = (P.makeTable c).bind fun r => .ok (r.1.setTab b T, r.2) := by
  unfold Pool.makeTable
  simp only [setTab_other _ _ h, setTab_comm _ h, setTab_tab]
  split
  · rfl
  · split
    · rfl
    · rw [allocate_setTab]
      cases (P.setTab c { P.tab c with index := 0 }).allocate (4 * ((P.tab c).maxId + 1)) with
      | fail => rfl
      | ub => rfl
      | ok r =>
        obtain ⟨Q, o⟩ := r
        show ((Out.ok (Q.setTab b T, o) : Out _) >>= _) = ((Out.ok (Q, o) : Out _) >>= _).bind _
        rw [Out.ok_bind, Out.ok_bind]
        cases o with
        | none => rfl
        | some ix =>
          simp only [setTab_other _ _ h, namesSize_setTab]
          cases Q.namesSize (Q.tab c) with
          | fail => rfl
          | ub => rfl
          | ok s =>
            rw [Out.ok_bind, Out.ok_bind]
            simp only [setTab_comm _ h]
            rw [indexLoop_setTab]
            cases Pool.indexLoop s.2.maxId ix (s.2.names + s.1) (s.2.maxId + 1).toNat (Q.setTab c s.2) s.2.names with
            | fail => rfl
            | ub => rfl
            | ok u =>
              obtain ⟨R, ok⟩ := u
              show ((Out.ok (R.setTab b T, ok) : Out _) >>= _) = ((Out.ok (R, ok) : Out _) >>= _).bind _
              rw [Out.ok_bind, Out.ok_bind]
              cases ok with
              | false => rfl
              | true => simp only [setTab_other _ _ h, setTab_comm _ h]; rfl

/-! ### the count is corrected -/

/-- a record that has not been numbered ends the names -/
theorem namesLoop_short {f : Img} {lim : Nat} {maxId : Int} (hl : lim ≤ f.size) : ∀ (l : List Sym) (p k fuel : Nat) (prev : Int),
    Has f.mem p (encSyms k l) → Has f.mem (p + symsLen l) [0, 0] → (∀ s ∈ l, NoNul s.name) → p % 4 = 0 → p + symsLen l + 4 ≤ lim → maxId = k + l.length → 0 < k + l.length → k + l.length ≤ 128 → prev = k - 1 → l.length < fuel →
    f.namesLoop lim maxId fuel k prev p = .ok (p + symsLen l, maxId - 1)
  | [], p, k, fuel, prev, h, hz, hg, hp, h1, hm, h0, h2, hpr, hf => by
    obtain ⟨n, rfl⟩ : ∃ n, fuel = n + 1 := ⟨fuel - 1, by omega⟩
    simp only [List.length_nil] at hm h0
    simp only [symsLen, Nat.add_zero] at hz h1
    have hz' := hz.tail
    unfold Img.namesLoop
    rw [if_neg (by omega), f.u8_ok hz'.1 (by omega) _ rfl, Out.ok_bind, f.u8_ok hz'.2 (by omega) _ (by omega), Out.ok_bind, show sid 0 0 = 0 from rfl, if_pos (by omega)]
    simp [symsLen]; omega
  | s :: l, p, k, fuel, prev, h, hz, hg, hp, h1, hm, h0, h2, hpr, hf => by
    obtain ⟨n, rfl⟩ : ∃ n, fuel = n + 1 := ⟨fuel - 1, by omega⟩
    simp only [List.length_cons] at hm h2 hf
    rw [encSyms, Has.append, encRec_length] at h
    simp only [symsLen] at h1 hz
    have hr := recAt_of (by omega) h.1
    have hlen := recLen_ge s
    have hgs := hg s List.mem_cons_self
    unfold Img.namesLoop
    rw [if_neg (by omega), f.u8_ok hr.lo (by omega) _ rfl, Out.ok_bind, f.u8_ok hr.hi (by omega) _ (by omega), Out.ok_bind, sid_ok (by omega), if_neg (by omega),
      skipName_from hr.nm hgs (Nat.le_refl _) (by omega) (by omega) hl, Out.ok_bind, (aa_next hp).1]
    have := namesLoop_short (maxId := maxId) hl l (p + recLen s) (k + 1) n k h.2 (by rw [Nat.add_assoc]; exact hz) (fun s' hs' => hg s' (List.mem_cons_of_mem _ hs')) (by omega) (by omega) (by omega) (by omega) (by omega) (by omega) (by omega)
    refine Eq.trans this ?_
    simp only [symsLen]
    rw [Nat.add_assoc]

/-- a pool, one of whose tables is to get one more symbol: there is memory for the record, which has the bytes `z` -/
structure Blank (U : Pool) (D : Doc) (b : Bool) (z : List UInt8) : Prop where
  nz : (U.tab b).names ≠ 0
  few : (D.syms b).length < 128
  idx : (U.tab b).index = 0
  room : (U.tab b).names + symsLen (D.syms b) + z.length ≤ U.alloc
  has : Has U.mem ((U.tab b).names + symsLen (D.syms b)) z

/-- the table counts the symbol that is missing -/
def Pool.oneMore (U : Pool) (b : Bool) : Pool := U.setTab b { U.tab b with maxId := (U.tab b).maxId + 1 }

theorem Blank.frame {U W : Pool} {D : Doc} {b : Bool} {z : List UInt8} (h : Blank U D b z) (ht : W.tab b = U.tab b) (hm : U.alloc ≤ W.alloc) (hk : ∀ i, i < U.alloc → W.mem i = U.mem i) : Blank W D b z := by
  have hr := h.room
  refine ⟨by rw [ht]; exact h.nz, h.few, by rw [ht]; exact h.idx, by rw [ht]; omega, ?_⟩
  rw [ht]
  exact h.has.congr fun i _ i2 => hk i (by omega)

/-- making the index of such a table -/
theorem blank_table {U Q : Pool} {D : Doc} {els V fl} (k : Keeps U D els V fl) {b : Bool} (hl : D.syms b ≠ []) (h : Blank U D b [0, 0, 0, 0]) {r : Bool} (ho : (U.oneMore b).makeTable b = .ok (Q, r)) (hr : r = true) :
    ∃ f, f b = true ∧ Keeps Q { D with ready := f } els V fl ∧ ∀ c, c ≠ b → f c = D.ready c := by
  subst hr
  have hU := k.sees.ok
  have ht := k.tabs b
  have hpos := List.length_pos_iff.2 hl
  have hn := h.nz
  have hmax := ht.max
  have hfew := h.few
  have hroom := h.room
  simp only [List.length_cons, List.length_nil] at hroom
  have hzero : Has U.mem ((U.tab b).names + symsLen (D.syms b)) [0, 0] := by
    have := h.has
    rw [show [(0 : UInt8), 0, 0, 0] = [0, 0] ++ [0, 0] from rfl, Has.append] at this
    exact this.1
  have hself : (U.oneMore b).setTab b { (U.oneMore b).tab b with index := 0 } = U.setTab b { U.tab b with maxId := (U.tab b).maxId + 1 } := by
    unfold Pool.oneMore
    rw [setTab_twice, setTab_tab]
    congr 1
    have := h.idx
    cases hT : U.tab b; rw [hT] at this; simp only at this; rw [this]
  unfold Pool.makeTable at ho
  simp only [hself, setTab_tab] at ho
  rw [if_neg (by omega), if_neg hn, allocate_setTab] at ho
  cases hall : U.allocate (4 * ((U.tab b).maxId + 1 + 1)) with
  | fail => rw [hall] at ho; cases ho
  | ub => rw [hall] at ho; cases ho
  | ok x =>
    obtain ⟨S, o⟩ := x
    rw [hall] at ho
    replace ho : ((Out.ok (S.setTab b { U.tab b with maxId := (U.tab b).maxId + 1 }, o) : Out _) >>= _) = _ := ho
    rw [Out.ok_bind] at ho
    obtain ⟨u1, u2, u3, u4⟩ := allocate_step hU b hall
    cases o with
    | none => simp at ho
    | some ix =>
      obtain ⟨o1, o2, o3, o4⟩ := u4 ix rfl
      have hsz : (4 * ((U.tab b).maxId + 1 + 1)).toNat = 4 * ((D.syms b).length + 1) := by omega
      rw [hsz, aa_of_mod (by omega)] at o3
      obtain ⟨n1, n2, n3, n4⟩ := ht.names hn
      have t1 : TabOk S (U.tab b) (D.syms b) := ht.frame u1.mono fun i hi => u1.keep i (ht.lt hi).2
      have hS := u1.ok
      have hSl := hS.lim; have hSa := hS.le
      have hsm := u1.mono
      have hloop := namesLoop_short (f := S.img) (lim := S.alloc) (maxId := (U.tab b).maxId + 1) (by show _ ≤ S.fileSize; omega) (D.syms b) (U.tab b).names 0 (S.alloc + 4) (-1)
        (t1.names hn).2.2.2 (hzero.congr fun i _ i2 => u1.keep i (by simp only [List.length_cons, List.length_nil] at i2; omega)) t1.noNul n2 (by omega) (by omega) (by omega) (by omega) (by omega)
        (by have := symsLen_mod (D.syms b); omega)
      have hns : (S.setTab b { U.tab b with maxId := (U.tab b).maxId + 1 }).namesSize { U.tab b with maxId := (U.tab b).maxId + 1 } = .ok (symsLen (D.syms b), U.tab b) := by
        rw [namesSize_setTab]
        unfold Pool.namesSize
        rw [if_neg hn]
        simp only
        rw [show ((0 : Nat) : Int) = 0 from rfl] at hloop
        rw [hloop, Out.ok_bind]
        simp
      simp only [setTab_tab] at ho
      rw [hns, Out.ok_bind] at ho
      simp only [setTab_twice] at ho
      have hSt : S.setTab b (U.tab b) = S := by rw [← u2, setTab_self]
      rw [hSt] at ho
      have hcount : ((U.tab b).maxId + 1).toNat = (D.syms b).length := by omega
      have hmapS := u1.map
      obtain ⟨R, q1, q2, q3, q4⟩ := indexLoop_ok (maxId := (U.tab b).maxId) (ix := ix) (stop := (U.tab b).names + symsLen (D.syms b)) (D.syms b) S (U.tab b).names 0 hS (by rw [hmapS]; exact k.sees.small) (t1.names hn).2.2.2 t1.noNul n2 rfl
        (by omega) (by omega) (by omega) (by omega)
      rw [hcount, q1, Out.ok_bind, if_pos rfl] at ho
      simp only [Out.pure_eq, Out.ok.injEq, Prod.mk.injEq, and_true] at ho
      have hRt : ∀ c, R.tab c = S.tab c := fun c => by rw [q2]; rfl
      rw [hRt b, u2] at ho
      subst ho
      have hhead := hU.head
      have hph : 0 < poolHeader := by decide
      have m1 : TabStep U (R.setTab b { U.tab b with index := ix }) b := by
        refine TabStep.setTab (Q := R) ⟨?_, ?_, ?_, ?_, ?_, ?_, ?_⟩ _
        · rw [q2]; exact hS.mem _
        · rw [q2]; exact u1.mono
        · rw [q2]; exact u1.file
        · rw [q2]; exact u1.map
        · rw [q2]; exact u1.root
        · intro c hc; rw [hRt]; exact u1.other c hc
        · intro i hi
          rw [q4 i (Or.inl (by omega))]
          exact u1.keep i hi
      have m2 : TabOk (R.setTab b { U.tab b with index := ix }) { U.tab b with index := ix } (D.syms b) := by
        refine ⟨t1.max, t1.few, t1.good, t1.nodup, t1.slow, t1.some, fun _ => ?_, fun _ => ⟨hn, ?_, ?_, ?_⟩⟩
        · rw [setTab_alloc, setTab_mem]
          refine ⟨n1, n2, by rw [q2]; exact (t1.names hn).2.2.1, (t1.names hn).2.2.2.congr fun i i1 i2 => q4 i (Or.inl ?_)⟩
          rw [encSyms_length] at i2
          replace i2 : i < (U.tab b).names + symsLen (D.syms b) := i2
          omega
        · simp only; omega
        · rw [setTab_alloc, q2]; simp only; omega
        · rw [setTab_mem]; simpa using q3
      generalize hX : R.setTab b { U.tab b with index := ix } = X at *
      have hXt : X.tab b = { U.tab b with index := ix } := by rw [← hX, setTab_tab]
      have hix : ix ≠ 0 := by omega
      have hkeep : ∀ p i, inPart U D p i → X.mem i = U.mem i := fun p i hi => m1.keep i (k.lt hi)
      refine ⟨fun c => if c = b then true else D.ready c, if_pos rfl, ?_, fun c hc => if_neg hc⟩
      refine ⟨k.sees.frame m1.ok m1.mono m1.map fun e he i i1 i2 => hkeep (.elem e) i (k.inElem he i1 (by omega)), k.lists, fun c => ?_, fun c => ?_, fun e he => ?_, ?_, by rw [m1.root]; exact k.root⟩
      · by_cases hc : c = b
        · subst hc; rw [hXt]; exact m2
        · rw [m1.other c hc]
          exact (k.tabs c).frame m1.mono fun i hi => by
            rcases hi with hi | hi
            · exact hkeep (.names c) i hi
            · exact hkeep (.index c) i hi
      · by_cases hc : c = b
        · subst hc; intro _ _; rw [hXt]; exact hix
        · intro hr hl
          replace hr : (if c = b then true else D.ready c) = true := hr
          rw [if_neg hc] at hr
          rw [m1.other c hc]; exact k.rdy c hr hl
      · exact (k.elem e he).frame m1.mono fun i hi => hkeep (.elem e) i (k.inElem he (by omega) (by omega))
      · refine k.fresh (.index b) fun p i hi => ?_
        cases p with
        | elem e => exact Or.inl hi
        | names c =>
          have hi' : inNames (X.tab c) (D.syms c) i := hi
          left
          by_cases hc : c = b
          · subst hc; rw [hXt] at hi'; exact hi'
          · rw [m1.other c hc] at hi'; exact hi'
        | index c =>
          replace hi : inIndex (X.tab c) (D.syms c) i := hi
          by_cases hc : c = b
          · subst hc
            rw [hXt] at hi
            obtain ⟨i1, i2, i3⟩ := hi
            exact Or.inr ⟨rfl, by replace i2 : ix ≤ i := i2; omega⟩
          · rw [m1.other c hc] at hi; exact Or.inl hi


theorem checkLoop_setTab (P : Pool) (b : Bool) (T X : Tab16) (size : Nat) : ∀ n i, (P.setTab b T).checkLoop X size n i = P.checkLoop X size n i
  | 0, _ => rfl
  | n+1, i => by
    unfold Pool.checkLoop
    rw [setTab_img]
    simp only [checkLoop_setTab P b T X size n]

theorem oneMore_of {U W : Pool} {b : Bool} (h : W.tab b = U.tab b) : W.setTab b { U.tab b with maxId := (U.tab b).maxId + 1 } = W.oneMore b := by unfold Pool.oneMore; rw [h]
theorem oneMore_index (U : Pool) (b : Bool) : ((U.oneMore b).tab b).index = (U.tab b).index := by unfold Pool.oneMore; rw [setTab_tab]

/-- the index of the other table -/
theorem blank_other {U Q : Pool} {D : Doc} {els V fl} (k : Keeps U D els V fl) {b c : Bool} (hc : c ≠ b) {z : List UInt8} (h : Blank U D b z) {r : Bool} (ho : (U.oneMore b).ensureTable c = .ok (Q, r)) :
    ∃ W, Q = W.oneMore b ∧ U.ensureTable c = .ok (W, r) ∧ Keeps W { D with ready := fun x => D.ready x || (decide (x = c) && r) } els V fl ∧ Blank W D b z := by
  unfold Pool.ensureTable at ho
  have e0 : (U.oneMore b).tab c = U.tab c := by unfold Pool.oneMore; rw [setTab_other _ _ hc]
  rw [e0] at ho
  by_cases h0 : (U.tab c).index ≠ 0
  · rw [if_pos h0] at ho
    simp only [Out.pure_eq, Out.ok.injEq, Prod.mk.injEq] at ho
    obtain ⟨rfl, rfl⟩ := ho
    have he : U.ensureTable c = .ok (U, true) := by unfold Pool.ensureTable; rw [if_pos h0]; rfl
    exact ⟨U, rfl, he, k.ensure he, h⟩
  · rw [if_neg h0] at ho
    unfold Pool.oneMore at ho
    rw [makeTable_setTab _ hc] at ho
    cases hm : U.makeTable c with
    | fail => rw [hm] at ho; cases ho
    | ub => rw [hm] at ho; cases ho
    | ok x =>
      obtain ⟨W, r'⟩ := x
      rw [hm] at ho
      replace ho : Out.ok (W.setTab b { U.tab b with maxId := (U.tab b).maxId + 1 }, r') = Out.ok (Q, r) := ho
      simp only [Out.ok.injEq, Prod.mk.injEq] at ho
      obtain ⟨rfl, rfl⟩ := ho
      obtain ⟨m1, -⟩ := makeTable_spec k.sees.ok k.sees.small (k.tabs c) hm
      have htb : W.tab b = U.tab b := m1.other b (Ne.symm hc)
      have he : U.ensureTable c = .ok (W, r') := by unfold Pool.ensureTable; rw [if_neg h0]; exact hm
      exact ⟨W, oneMore_of htb, he, k.ensure he, h.frame htb m1.mono m1.keep⟩

/-- once both tables have an index, the count is right -/
theorem blank_all {E : Env} {U Q : Pool} {D : Doc} {els V fl} (k : Keeps U D els V fl) {b : Bool} (hl : D.syms b ≠ []) (h : Blank U D b [0, 0, 0, 0]) (ho : (U.oneMore b).allRegistered E = .ok (Q, true)) :
    Keeps Q { D with ready := fun _ => true } els V fl := by
  unfold Pool.allRegistered at ho
  rw [Pool.oneMore, makeSpace_setTab] at ho
  cases hs : U.makeSpace E 0x4000 with
  | fail => rw [hs] at ho; cases ho
  | ub => rw [hs] at ho; cases ho
  | ok x =>
    obtain ⟨W, r⟩ := x
    have g := makeSpace_got k.sees.ok hs
    have kW := k.got g
    have hW := h.frame (g.tab b) g.mono g.keep
    rw [hs] at ho
    replace ho : ((Out.ok (W.setTab b { U.tab b with maxId := (U.tab b).maxId + 1 }, r) : Out _) >>= _) = _ := ho
    rw [Out.ok_bind, oneMore_of (g.tab b)] at ho
    cases r with
    | false => simp at ho
    | true =>
      rw [if_neg (by simp)] at ho
      obtain ⟨⟨X, r2⟩, h2, h3⟩ := Out.bind_eq_ok ho
      clear ho
      cases r2 with
      | false => simp at h3
      | true =>
        rw [if_neg (by simp)] at h3
        simp only at h3 h2
        cases b with
        | true =>
          unfold Pool.ensureTable at h2
          rw [oneMore_index, hW.idx, if_neg (by simp)] at h2
          obtain ⟨f, f1, f2, f3⟩ := blank_table kW hl hW h2 rfl
          have k3 := f2.ensure h3
          refine k3.ready fun c _ hc => k3.rdy c ?_ hc
          cases c <;> simp [f1]
        | false =>
          obtain ⟨Y, rfl, y2, y3, y4⟩ := blank_other kW (by simp) hW h2
          unfold Pool.ensureTable at h3
          rw [oneMore_index, y4.idx, if_neg (by simp)] at h3
          obtain ⟨f, f1, f2, f3⟩ := blank_table y3 hl ⟨y4.nz, y4.few, y4.idx, y4.room, y4.has⟩ h3 rfl
          refine f2.ready fun c _ hc => f2.rdy c ?_ hc
          cases c
          · exact f1
          · show f true = true
            rw [f3 true (by simp)]; simp

/-- the file is opened all the same -/
theorem blank_opened {U : Pool} {D : Doc} {els V fl} (k : Keeps U D els V fl) {b : Bool} {z : List UInt8} (h : Blank U D b z) (low : D.root < 2147483648) (E : Env) (n : Nat) :
    ∃ W, openFile E false n (U.oneMore b).file = .ok (some ⟨W.oneMore b, true, 0⟩) ∧ Keeps W D els V fl ∧ Blank W D b z := by
  have hP := k.sees.ok
  have hsm := k.sees.small
  obtain ⟨a1, a2, a3, a4, a5, a6, a7, a8, a9⟩ := file_fields (U.oneMore b)
  have p1 := hP.head; have p2 := hP.le; have p3 := hP.lim; have p4 := hP.map
  have hh : poolHeader = 92 := rfl
  have eF : (U.oneMore b).fileSize = U.fileSize := setTab_fileSize _ _ _
  have eM : (U.oneMore b).mmapSize = U.mmapSize := setTab_mmapSize _ _ _
  have eR : (U.oneMore b).root = U.root := setTab_root _ _ _
  have eA : (U.oneMore b).alloc = U.alloc := setTab_alloc _ _ _
  have eL : (U.oneMore b).limit = U.limit := setTab_limit _ _ _
  have hr : U.root < 2147483648 := by rw [k.root]; exact low
  have hsz : (U.oneMore b).file.size = U.fileSize := eF
  have f28 := field_ok a2 (by decide)
  have f32 := field_ok a3 (isI32_of_lt (by omega))
  have f36 := field_ok a4 (isI32_of_lt (by omega))
  have f44 := field_ok a5 (isI32_of_lt (by omega))
  have f52 := field_ok a6 (isI32_of_lt (by omega))
  have f56 := field_ok a7 (isI32_of_lt (by omega))
  have rng : ∀ c, isI32 ((U.oneMore b).tab c).maxId ∧ ((U.oneMore b).tab c).names < 2147483648 ∧ ((U.oneMore b).tab c).index < 2147483648 := by
    intro c
    have hb := k.tabs c
    have r0 : (U.tab c).maxId + 1 ≤ 2147483646 ∧ -1 ≤ (U.tab c).maxId ∧ (U.tab c).names < 2147483648 ∧ (U.tab c).index < 2147483648 := by
      have := hb.few
      refine ⟨by rw [hb.max]; omega, by rw [hb.max]; omega, ?_, ?_⟩
      · by_cases hn : (U.tab c).names = 0
        · omega
        · have := hb.names hn; omega
      · by_cases hn : (U.tab c).index = 0
        · omega
        · have := hb.index hn; omega
    by_cases hc : c = b
    · subst hc
      unfold Pool.oneMore
      rw [setTab_tab]
      refine ⟨?_, r0.2.2⟩
      unfold isI32 INT_MIN INT_MAX
      simp only
      omega
    · unfold Pool.oneMore
      rw [setTab_other _ _ hc]
      refine ⟨?_, r0.2.2⟩
      unfold isI32 INT_MIN INT_MAX
      omega
  have t1 : (U.oneMore b).file.tab16 60 = some (U.oneMore b).tags := tab16_ok a8 (rng true).1 (rng true).2.1 (rng true).2.2
  have t2 : (U.oneMore b).file.tab16 76 = some (U.oneMore b).params := tab16_ok a9 (rng false).1 (rng false).2.1 (rng false).2.2
  have hmem : ∀ i, poolHeader ≤ i → (U.oneMore b).file.mem i = U.mem i := fun i hi => by rw [file_mem _ i hi]; unfold Pool.oneMore; rw [setTab_mem]
  have kW := k.same hmem
  refine ⟨{ U with mem := (U.oneMore b).file.mem }, ?_, kW, ?_⟩
  · unfold openFile
    rw [if_neg (by omega), f36, if_neg (by omega), if_neg (by simp), Int.toNat_natCast]
    unfold checkExisting
    have hid : slice (U.oneMore b).file.mem 4 22 = poolIdent ++ [0] := a1
    rw [f28, f32, f44, f52, f56, hid, if_neg (by simp; omega), if_neg (by omega), t1, t2]
    simp only [Int.toNat_natCast]
    have hpool : (⟨(U.oneMore b).file.mem, (U.oneMore b).file.size, (U.oneMore b).mmapSize, (U.oneMore b).root, (U.oneMore b).alloc, (U.oneMore b).limit, (U.oneMore b).tags, (U.oneMore b).params⟩ : Pool) =
        ({ U with mem := (U.oneMore b).file.mem } : Pool).oneMore b := by
      generalize (U.oneMore b).file.mem = m
      rw [hsz]
      cases b <;> rfl
    rw [hpool]
    have hck : ∀ c, (({ U with mem := (U.oneMore b).file.mem } : Pool).oneMore b).checkIndex c = .ok (({ U with mem := (U.oneMore b).file.mem } : Pool).oneMore b) := by
      intro c
      by_cases hc : c = b
      · subst hc
        unfold Pool.checkIndex Pool.checkTab
        rw [oneMore_index, if_pos (show (({ U with mem := (U.oneMore c).file.mem } : Pool).tab c).index = 0 from h.idx)]
        rfl
      · have hk := checkIndex_ok kW.sees.ok kW.sees.small (kW.tabs c)
        generalize ({ U with mem := (U.oneMore b).file.mem } : Pool) = W at *
        have e0 : (W.oneMore b).tab c = W.tab c := by unfold Pool.oneMore; rw [setTab_other _ _ hc]
        by_cases hi : (W.tab c).index = 0
        · unfold Pool.checkIndex Pool.checkTab
          rw [e0, if_pos hi]; rfl
        · have hns := namesSize_ok kW.sees.ok (kW.tabs c)
          unfold Pool.checkIndex Pool.checkTab
          rw [e0, if_neg hi, Pool.oneMore, namesSize_setTab, hns, Out.ok_bind]
          have hself : (W.setTab b { W.tab b with maxId := (W.tab b).maxId + 1 }).setTab c (W.tab c) = W.oneMore b := by rw [setTab_comm _ hc, setTab_self]; rfl
          simp only [hself]
          rw [Pool.oneMore, checkLoop_setTab, checkLoop_ok kW.sees.ok kW.sees.small (kW.tabs c) hi _ 0 (by rw [(kW.tabs c).max]; omega)]
          rfl
    rw [hck true, Out.ok_bind, hck false]
    rfl
  · have hnz := (k.tabs b).names h.nz
    exact ⟨h.nz, h.few, h.idx, h.room, h.has.congr fun i i1 _ => hmem i (by omega)⟩

/-- the elements of a document are seen without its symbols -/
theorem blank_shows {U : Pool} {D : Doc} {els V fl} (k : Keeps U D els V fl) (b : Bool) (T : Tab16) : Shows (U.setTab b T) { D with ready := fun _ => false } := by
  have k0 : Keeps U { D with ready := fun _ => false } els V fl := k.ready (by simp)
  have hal := k.sees.ok.le; have hlim := k.sees.ok.lim
  have hs : Sees (U.setTab b T) els V fl := k.sees.frame (k.sees.ok.setTab b _) (by rw [setTab_alloc]; omega) (by rw [setTab_mmapSize]) fun e he i i1 i2 => by rw [setTab_mem]
  have r : Ahead D.forest els V := k0.lists.ahead (fun _ _ _ _ => rfl) fun _ _ _ _ => rfl
  have hel : ∀ e ∈ els, ElemAt (U.setTab b T) e (D.id e) (D.type e) (D.val e) := fun e he => (k.elem e he).frame (by rw [setTab_alloc]; omega) fun i _ => by rw [setTab_mem]
  have eF : (U.setTab b T).fileSize = U.fileSize := setTab_fileSize _ _ _
  have eA : (U.setTab b T).alloc = U.alloc := setTab_alloc _ _ _
  refine ⟨by rw [setTab_root]; exact k.root, fun p hp fuel hf => ahead_forwards hs r ((r.mem p).1 hp) hf, fun p hp fuel hf => ahead_list hs r ((r.mem p).1 hp) (Or.inr rfl) hf, ?_, ?_, ?_, by simp⟩
  · intro p hp
    exact (hel p ((r.mem p).1 hp)).eId hs.size.1
  · intro p hp
    have he := hel p ((r.mem p).1 hp)
    have := he.hi
    exact Img.u8_ok (f := (U.setTab b T).img) he.ty (by show p + 7 + 1 ≤ (U.setTab b T).fileSize; omega) _ (by omega)
  · intro p hp
    have he := hel p ((r.mem p).1 hp)
    have := he.hi
    exact Img.rd_ok (f := (U.setTab b T).img) he.val (by show p + 24 + _ ≤ (U.setTab b T).fileSize; omega) _ (by omega) _ rfl

end BX
