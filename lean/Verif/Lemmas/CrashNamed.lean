import Verif.Lemmas.CrashCounted
import Verif.Spec.CrashRegister
/-
A table whose last record has a part of a name.
-/
namespace BX
open XBT Spec

/-- the table has one more symbol, and the index at `ix` is of all of them -/
structure PartNamed (X : Pool) (D : Doc) (b : Bool) (s : Sym) (ix : Nat) : Prop where
  few : (D.syms b).length < 128
  good : NoNul s.name
  pos : ix ≠ 0
  names : 0 < (X.tab b).names
  room : (X.tab b).names + symsLen (D.syms b ++ [s]) ≤ X.alloc
  has : Has X.mem (X.tab b).names (encSyms 0 (D.syms b ++ [s]))
  iroom : ix + 4 * ((D.syms b).length + 1) ≤ X.alloc
  idx : Has X.mem ix (encIdx (X.tab b).names (D.syms b ++ [s]))

/-- with its index -/
def Pool.withIx (X : Pool) (b : Bool) (ix : Nat) : Pool := X.setTab b { X.tab b with maxId := (X.tab b).maxId + 1, index := ix }

theorem PartNamed.frame {X W : Pool} {D : Doc} {b : Bool} {s : Sym} {ix : Nat} (h : PartNamed X D b s ix) (ht : W.tab b = X.tab b) (hm : X.alloc ≤ W.alloc) (hk : ∀ i, i < X.alloc → W.mem i = X.mem i) : PartNamed W D b s ix := by
  have hr := h.room
  have hi := h.iroom
  refine ⟨h.few, h.good, h.pos, by rw [ht]; exact h.names, by rw [ht]; omega, ?_, by omega, ?_⟩
  · rw [ht]; exact h.has.congr fun i _ i2 => hk i (by rw [encSyms_length] at i2; omega)
  · rw [ht]; exact h.idx.congr fun i _ i2 => hk i (by rw [encIdx_length, List.length_append, List.length_cons, List.length_nil] at i2; omega)

/-- making the index of such a table -/
theorem begun_table {U Q : Pool} {D : Doc} {els V fl} (k : Keeps U D els V fl) {b : Bool} {s : Sym} (hs : NoNul s.name) (h : Blank U D b (encRec (D.syms b).length s)) (ho : (U.oneMore b).makeTable b = .ok (Q, true)) :
    ∃ X ix, Q = X.withIx b ix ∧ Keeps X D els V fl ∧ PartNamed X D b s ix := by
  have hU := k.sees.ok
  have ht := k.tabs b
  have hn := h.nz
  have hmax := ht.max
  have hfew := h.few
  have hroom := h.room
  rw [encRec_length] at hroom
  have hself : (U.oneMore b).setTab b { (U.oneMore b).tab b with index := 0 } = U.setTab b { U.tab b with maxId := (U.tab b).maxId + 1 } := by
    unfold Pool.oneMore
    rw [setTab_twice, setTab_tab]
    congr 1
    have := h.idx
    cases hT : U.tab b; rw [hT] at this; simp only at this; rw [this]
  unfold Pool.makeTable at ho
  simp only [hself, setTab_tab] at ho
  rw [if_neg (by omega), if_neg hn, allocate_setTab] at ho
  cases hall : U.allocate (4 * ((U.tab b).maxId + 1 + 1)) with
  | fail => rw [hall] at ho; cases ho
  | ub => rw [hall] at ho; cases ho
  | ok x =>
    obtain ⟨S, o⟩ := x
    rw [hall] at ho
    replace ho : ((Out.ok (S.setTab b { U.tab b with maxId := (U.tab b).maxId + 1 }, o) : Out _) >>= _) = _ := ho
    rw [Out.ok_bind] at ho
    obtain ⟨u1, u2, u3, u4⟩ := allocate_step hU b hall
    cases o with
    | none => simp at ho
    | some ix =>
      obtain ⟨o1, o2, o3, o4⟩ := u4 ix rfl
      have hsz : (4 * ((U.tab b).maxId + 1 + 1)).toNat = 4 * ((D.syms b).length + 1) := by omega
      rw [hsz, aa_of_mod (by omega)] at o3
      obtain ⟨n1, n2, n3, n4⟩ := ht.names hn
      have hS := u1.ok
      have hSl := hS.lim; have hSa := hS.le
      have hsm := u1.mono
      have hlen : (D.syms b ++ [s]).length = (D.syms b).length + 1 := by rw [List.length_append]; rfl
      have hsl : symsLen (D.syms b ++ [s]) = symsLen (D.syms b) + recLen s := by rw [symsLen_append]; simp [symsLen]
      have hall' : Has S.mem (U.tab b).names (encSyms 0 (D.syms b ++ [s])) := by
        rw [encSyms_append, Has.append, encSyms_length]
        refine ⟨n4.congr fun i _ i2 => u1.keep i (by rw [encSyms_length] at i2; omega), ?_⟩
        simp only [encSyms, List.append_nil, Nat.zero_add]
        exact h.has.congr fun i _ i2 => u1.keep i (by rw [encRec_length] at i2; omega)
      have hnn : ∀ s' ∈ D.syms b ++ [s], NoNul s'.name := by
        intro s' hs'
        rcases List.mem_append.1 hs' with hs' | hs'
        · exact ht.noNul s' hs'
        · simp only [List.mem_cons, List.not_mem_nil, or_false] at hs'
          rw [hs']; exact hs
      have hloop := namesLoop_ok (f := S.img) (lim := S.alloc) (maxId := (U.tab b).maxId + 1) (by show _ ≤ S.fileSize; omega) (D.syms b ++ [s]) (U.tab b).names 0 (S.alloc + 4) (-1)
        hall' hnn n2 (by omega) (by omega) (by omega) (by omega) (by omega)
      have hns : (S.setTab b { U.tab b with maxId := (U.tab b).maxId + 1 }).namesSize { U.tab b with maxId := (U.tab b).maxId + 1 } = .ok (symsLen (D.syms b ++ [s]), { U.tab b with maxId := (U.tab b).maxId + 1 }) := by
        rw [namesSize_setTab]
        unfold Pool.namesSize
        rw [if_neg hn]
        simp only
        rw [show ((0 : Nat) : Int) = 0 from rfl] at hloop
        rw [hloop, Out.ok_bind]
        simp
      simp only [setTab_tab] at ho
      rw [hns, Out.ok_bind] at ho
      simp only [setTab_twice] at ho
      have hcount : ((U.tab b).maxId + 1 + 1).toNat = (D.syms b ++ [s]).length := by omega
      have hmapS := u1.map
      obtain ⟨R, q1, q2, q3, q4⟩ := indexLoop_ok (maxId := (U.tab b).maxId + 1) (ix := ix) (stop := (U.tab b).names + symsLen (D.syms b ++ [s])) (D.syms b ++ [s]) S (U.tab b).names 0 hS (by rw [hmapS]; exact k.sees.small) hall' hnn n2 rfl
        (by omega) (by omega) (by omega) (by omega)
      rw [hcount, indexLoop_setTab, q1] at ho
      replace ho : ((Out.ok (R.setTab b { U.tab b with maxId := (U.tab b).maxId + 1 }, true) : Out _) >>= _) = _ := ho
      rw [Out.ok_bind, if_pos rfl] at ho
      simp only [Out.pure_eq, Out.ok.injEq, Prod.mk.injEq, and_true, setTab_tab, setTab_twice] at ho
      have hRt : ∀ c, R.tab c = U.tab c := fun c => by
        have e : R.tab c = S.tab c := by rw [q2]; rfl
        rw [e]
        by_cases hc : c = b
        · rw [hc, u2]
        · exact u1.other c hc
      have hRa : R.alloc = S.alloc := by rw [q2]
      have hhead := hU.head
      have hph : 0 < poolHeader := by decide
      have g : Got U R := by
        refine ⟨?_, ?_, ?_, ?_, ⟨?_, hRt true, hRt false⟩, ?_⟩
        · rw [q2]; exact hS.mem _
        · rw [q2]; exact u1.mono
        · rw [q2]; exact Nat.le_of_eq u1.file.symm
        · rw [q2]; exact u1.map
        · rw [q2]; exact u1.root
        · intro i hi
          rw [q4 i (Or.inl (by omega))]
          exact u1.keep i hi
      refine ⟨R, ix, ?_, k.got g, hfew, hs, by omega, by rw [hRt]; omega, by rw [hRt]; omega, ?_, by omega, ?_⟩
      · rw [← ho]; unfold Pool.withIx; rw [hRt]
      · rw [hRt]
        exact hall'.congr fun i _ i2 => q4 i (Or.inl (by rw [encSyms_length] at i2; omega))
      · rw [hRt]; simpa using q3

theorem named_indexed {X : Pool} (hX : PoolOk X) (hsm : X.mmapSize < 2147483648) {D : Doc} {b : Bool} {s : Sym} {ix : Nat} (h : PartNamed X D b s ix) {i : Nat} (hlt : i < (D.syms b ++ [s]).length) :
    (X.withIx b ix).indexed ((X.withIx b ix).tab b) i = .ok (some (recAt (X.tab b).names (D.syms b ++ [s]) i : Nat)) := by
  have hsz := hX.size
  have hmp := hX.map
  have hr := h.room; have hi := h.iroom; have hp := h.names
  have hrec := encSyms_get _ X.mem (X.tab b).names 0 i hlt h.has
  have hge : (X.tab b).names ≤ recAt (X.tab b).names (D.syms b ++ [s]) i := by unfold recAt; omega
  have hlen : (D.syms b ++ [s]).length = (D.syms b).length + 1 := by rw [List.length_append]; rfl
  unfold Pool.indexed Pool.withIx
  rw [setTab_img, setTab_tab]
  rw [Img.i32_ok (f := X.img) (encIdx_get _ X.mem (X.tab b).names ix i h.idx hlt) (by show _ ≤ X.fileSize; omega) (isI32_of_lt (by omega)) _ (by simp only; omega), Out.ok_bind]
  simp only [Out.pure_eq]
  rw [if_neg (by omega)]

/-- the symbols of such a table -/
theorem named_sym {X : Pool} (hX : PoolOk X) (hsm : X.mmapSize < 2147483648) {D : Doc} {b : Bool} {s : Sym} {ix : Nat} (ht : TabOk X (X.tab b) (D.syms b)) (h : PartNamed X D b s ix) {i : Nat} (hlt : i < (D.syms b ++ [s]).length) :
    (X.withIx b ix).symName b i = .ok (some (D.syms b ++ [s])[i].name) ∧ (X.withIx b ix).symType b i = .ok (some (D.syms b ++ [s])[i].type) := by
  have hx := named_indexed hX hsm h hlt
  have hsz := hX.size
  have hfew := h.few
  have hroom := h.room
  have hlen : (D.syms b ++ [s]).length = (D.syms b).length + 1 := by rw [List.length_append]; rfl
  have hrec := encSyms_get _ X.mem (X.tab b).names 0 i hlt h.has
  have hr := recAt_of (by omega) hrec.1
  have hl := recLen_ge (D.syms b ++ [s])[i]
  have hmax := ht.max
  have htab : (X.withIx b ix).tab b = { X.tab b with maxId := (X.tab b).maxId + 1, index := ix } := by unfold Pool.withIx; rw [setTab_tab]
  have himg : (X.withIx b ix).img = X.img := by unfold Pool.withIx; rw [setTab_img]
  have hi1 : ((X.withIx b ix).tab b).index ≠ 0 := by rw [htab]; exact h.pos
  have hi2 : ((X.withIx b ix).tab b).maxId = (D.syms b).length := by rw [htab]; show (X.tab b).maxId + 1 = _; omega
  have hnn : NoNul (D.syms b ++ [s])[i].name := by
    rcases List.mem_append.1 (List.getElem_mem hlt) with hm | hm
    · exact ht.noNul _ hm
    · simp only [List.mem_cons, List.not_mem_nil, or_false] at hm
      rw [hm]; exact h.good
  constructor
  · unfold Pool.symName
    rw [if_neg (by omega), hx, Out.ok_bind, himg]
    simp only
    rw [Img.str_ok (f := X.img) hr.nm hnn (by show _ ≤ X.fileSize; omega) _ (by omega), Out.ok_bind]; rfl
  · unfold Pool.symType
    rw [if_neg hi1, if_neg (by omega), if_neg (by omega), hx, Out.ok_bind]
    unfold Pool.typeAt
    simp only [himg]
    rw [Img.u8_ok (f := X.img) hr.ty (by show _ ≤ X.fileSize; omega) _ (by omega), Out.ok_bind, ofCode_code]; rfl

theorem sym_setTab (P : Pool) {b c : Bool} (h : c ≠ b) (T : Tab16) (i : Int) : (P.setTab b T).symName c i = P.symName c i ∧ (P.setTab b T).symType c i = P.symType c i := by
  unfold Pool.symName Pool.symType Pool.typeAt Pool.indexed
  rw [setTab_other _ _ h, setTab_img]
  exact ⟨rfl, rfl⟩

/-- what is seen once both tables have an index -/
theorem named_shows {X : Pool} {D : Doc} {els V fl} (k : Keeps X D els V fl) {b : Bool} {s : Sym} {ix : Nat} (h : PartNamed X D b s ix) (hr : ∀ c, c ≠ b → D.ready c = true) :
    Shows (X.withIx b ix) { D.withSym b s.name s.type with ready := fun _ => true } ∧ ∀ c, ((X.withIx b ix).tab c).maxId + 1 = ((D.withSym b s.name s.type).syms c).length := by
  have e1 : (D.withSym b s.name s.type).syms b = D.syms b ++ [s] := (setSyms_self D b _ _).1
  have e2 : ∀ c, c ≠ b → (D.withSym b s.name s.type).syms c = D.syms c := fun c hc => (setSyms_other D _ _ hc).1
  obtain ⟨s1, s2, s3, s4, s5, s6, -⟩ := blank_shows k b { X.tab b with maxId := (X.tab b).maxId + 1, index := ix }
  refine ⟨⟨s1, s2, s3, s4, s5, s6, fun c _ i hi => ?_⟩, fun c => ?_⟩
  · by_cases hc : c = b
    · subst hc
      have hi' : i < (D.syms c ++ [s]).length := by rw [← e1]; exact hi
      have := named_sym k.sees.ok k.sees.small (k.tabs c) h hi'
      simp only [e1]
      exact this
    · have hi' : i < (D.syms c).length := by rw [← e2 c hc]; exact hi
      have hx := k.rdy c (hr c hc) (by rintro he; rw [he] at hi'; simp at hi')
      unfold Pool.withIx
      rw [(sym_setTab X hc _ i).1, (sym_setTab X hc _ i).2]
      simp only [e2 c hc]
      exact ⟨symName_ok k.sees.ok k.sees.small (k.tabs c) hx hi', symType_ok k.sees.ok k.sees.small (k.tabs c) hx hi'⟩
  · by_cases hc : c = b
    · subst hc
      rw [e1, List.length_append]
      have := (k.tabs c).max
      unfold Pool.withIx
      rw [setTab_tab]
      simp only [List.length_cons, List.length_nil]
      omega
    · rw [e2 c hc]
      have := (k.tabs c).max
      unfold Pool.withIx
      rw [setTab_other _ _ hc]
      omega

/-- both tables get an index -/
theorem named_all {E : Env} {U Q : Pool} {D : Doc} {els V fl} (k : Keeps U D els V fl) {b : Bool} {s : Sym} (hs : NoNul s.name) (h : Blank U D b (encRec (D.syms b).length s)) (ho : (U.oneMore b).allRegistered E = .ok (Q, true)) :
    Shows Q { D.withSym b s.name s.type with ready := fun _ => true } ∧ ∀ c, (Q.tab c).maxId + 1 = ((D.withSym b s.name s.type).syms c).length := by
  unfold Pool.allRegistered at ho
  rw [Pool.oneMore, makeSpace_setTab] at ho
  cases hsp : U.makeSpace E 0x4000 with
  | fail => rw [hsp] at ho; cases ho
  | ub => rw [hsp] at ho; cases ho
  | ok x =>
    obtain ⟨W, r⟩ := x
    have g := makeSpace_got k.sees.ok hsp
    have kW := k.got g
    have hW := h.frame (g.tab b) g.mono g.keep
    rw [hsp] at ho
    replace ho : ((Out.ok (W.setTab b { U.tab b with maxId := (U.tab b).maxId + 1 }, r) : Out _) >>= _) = _ := ho
    rw [Out.ok_bind, oneMore_of (g.tab b)] at ho
    cases r with
    | false => simp at ho
    | true =>
      rw [if_neg (by simp)] at ho
      obtain ⟨⟨Y, r2⟩, h2, h3⟩ := Out.bind_eq_ok ho
      clear ho
      cases r2 with
      | false => simp at h3
      | true =>
        rw [if_neg (by simp)] at h3
        simp only at h3 h2
        cases b with
        | true =>
          unfold Pool.ensureTable at h2
          rw [oneMore_index, hW.idx, if_neg (by simp)] at h2
          obtain ⟨X, ix, rfl, x2, x3⟩ := begun_table kW hs hW h2
          unfold Pool.ensureTable at h3
          have e0 : (X.withIx true ix).tab false = X.tab false := by unfold Pool.withIx; rw [setTab_other _ _ (by simp)]
          rw [e0] at h3
          by_cases h0 : (X.tab false).index ≠ 0
          · rw [if_pos h0] at h3
            simp only [Out.pure_eq, Out.ok.injEq, Prod.mk.injEq, and_true] at h3
            subst h3
            have k3 : Keeps X { D with ready := fun c => if c = true then false else true } els V fl := x2.ready fun c hc _ => by
              cases c
              · exact h0
              · simp at hc
            exact named_shows k3 ⟨x3.few, x3.good, x3.pos, x3.names, x3.room, x3.has, x3.iroom, x3.idx⟩ fun c hc => by cases c <;> simp_all
          · rw [if_neg h0, Pool.withIx, makeTable_setTab _ (by simp)] at h3
            cases hm : X.makeTable false with
            | fail => rw [hm] at h3; cases h3
            | ub => rw [hm] at h3; cases h3
            | ok x =>
              obtain ⟨Z, r'⟩ := x
              rw [hm] at h3
              replace h3 : Out.ok (Z.setTab true _, r') = Out.ok (Q, true) := h3
              simp only [Out.ok.injEq, Prod.mk.injEq] at h3
              obtain ⟨h3, rfl⟩ := h3
              obtain ⟨m1, -⟩ := makeTable_spec x2.sees.ok x2.sees.small (x2.tabs false) hm
              have htb : Z.tab true = X.tab true := m1.other true (by simp)
              have k3 := x2.index hm (by omega)
              have hZ := x3.frame htb m1.mono m1.keep
              have hQ : Q = Z.withIx true ix := by rw [← h3]; unfold Pool.withIx; rw [htb]
              rw [hQ]
              exact named_shows k3 ⟨hZ.few, hZ.good, hZ.pos, hZ.names, hZ.room, hZ.has, hZ.iroom, hZ.idx⟩ fun c hc => by cases c <;> simp_all
        | false =>
          obtain ⟨Y', rfl, y2, y3, y4⟩ := blank_other kW (by simp) hW h2
          unfold Pool.ensureTable at h3
          rw [oneMore_index, y4.idx, if_neg (by simp)] at h3
          obtain ⟨X, ix, rfl, x2, x3⟩ := begun_table y3 hs ⟨y4.nz, y4.few, y4.idx, y4.room, y4.has⟩ h3
          exact named_shows x2 x3 fun c hc => by cases c <;> simp_all

/-- such a file is opened, and has one more symbol -/
theorem named_recovers {E : Env} {U : Pool} {D : Doc} {els V fl} (k : Keeps U D els V fl) (low : D.root < 2147483648) {b : Bool} {s : Sym} (hs : NoNul s.name) (h : Blank U D b (encRec (D.syms b).length s)) :
    RecoversAs E (U.oneMore b).file (D.withSym b s.name s.type) := by
  refine ⟨fun n => ?_, fun n g hg R hR => ?_⟩
  · obtain ⟨W, w1, w2, w3⟩ := blank_opened k h low E n
    obtain ⟨s1, s2, s3, s4, s5, s6, -⟩ := blank_shows w2 b { W.tab b with maxId := (W.tab b).maxId + 1 }
    exact ⟨_, w1, _, List.mem_singleton.2 rfl, s1, s2, s3, s4, s5, s6, by simp⟩
  · obtain ⟨W, w1, w2, w3⟩ := blank_opened k h low E n
    rw [hg] at w1
    cases w1
    exact named_all w2 hs w3 hR

/-- a file that counts a symbol that is missing is opened, and has the symbols it had -/
theorem counted_recovers {E : Env} {U : Pool} {D : Doc} {els V fl} (k : Keeps U D els V fl) (low : D.root < 2147483648) {b : Bool} (hl : D.syms b ≠ []) (h : Blank U D b [0, 0, 0, 0]) : RecoversAs E (U.oneMore b).file D := by
  refine ⟨fun n => ?_, fun n g hg R hR => ?_⟩
  · obtain ⟨W, w1, w2, w3⟩ := blank_opened k h low E n
    exact ⟨_, w1, _, List.mem_singleton.2 rfl, blank_shows w2 b _⟩
  · obtain ⟨W, w1, w2, w3⟩ := blank_opened k h low E n
    rw [hg] at w1
    cases w1
    have ka := blank_all w2 hl w3 hR
    exact ⟨ka.holds.shows ka.sees (ka.lists.ahead (fun _ _ _ _ => rfl) fun _ _ _ _ => rfl), fun c => by have := (ka.tabs c).max; simp only at this; omega⟩

/-! ### the states of a registration -/

theorem roomed_got {A : Pool} (hA : PoolOk A) {n : Nat} (hr : A.alloc + aa n ≤ A.limit) {m : Mem} (hm : ∀ i, i < A.alloc → m i = A.mem i) : Got A { A.roomed n with mem := m } := by
  have hmn := aa_mod n
  have hge := aa_ge n
  exact ⟨⟨by have := hA.head; show _ ≤ A.alloc + aa n; omega, by have := hA.al; show (A.alloc + aa n) % 4 = 0; omega, hr, hA.lim, hA.map, hA.page⟩, by show _ ≤ A.alloc + aa n; omega, Nat.le_refl _, rfl, ⟨rfl, rfl, rfl⟩, hm⟩

theorem rest_recovers {E : Env} {A : Pool} {D : Doc} {els V fl} (k : Keeps A D els V fl) (low : D.root < 2147483648) {b : Bool} (hl : D.syms b ≠ []) (hi : (A.tab b).index = 0) (he : (A.tab b).names + symsLen (D.syms b) = A.alloc)
    (hfew : (D.syms b).length < 128) {n : Nat} (hn : 0 < n) (hr : A.alloc + aa n ≤ A.limit) : RecoversAs E (A.counted b n).file D := by
  have hge := aa_ge n
  have hmn := aa_mod n
  have g : Got A (A.roomed n) := roomed_got k.sees.ok hr fun i hi => memPut_frame _ _ _ _ (Or.inl hi)
  have hb : Blank (A.roomed n) D b [0, 0, 0, 0] := by
    refine ⟨(k.tabs b).some hl, hfew, hi, ?_, ?_⟩
    · show (A.tab b).names + _ + 4 ≤ A.alloc + aa n
      omega
    · show Has (memPut A.mem A.alloc (List.replicate (aa n) 0)) ((A.tab b).names + _) _
      rw [he]
      have := Has.self A.mem A.alloc (List.replicate (aa n) 0)
      rw [show aa n = 4 + (aa n - 4) by omega, ← List.replicate_append_replicate, Has.append] at this
      rw [show aa n = 4 + (aa n - 4) by omega, ← List.replicate_append_replicate]
      exact this.1
  have := counted_recovers (E := E) (k.got g) low hl hb
  exact this

theorem begun_recovers {E : Env} {A : Pool} {D : Doc} {els V fl} (k : Keeps A D els V fl) (low : D.root < 2147483648) {b : Bool} (hn : (A.tab b).names ≠ 0) (hi : (A.tab b).index = 0) (he : (A.tab b).names + symsLen (D.syms b) = A.alloc)
    (hfew : (D.syms b).length < 128) {n : Nat} (hr : A.alloc + aa n ≤ A.limit) {p : BStr} {t : XBT} (hg : NoNul p) (hp : p.length + 4 ≤ n) :
    RecoversAs E (A.begun b n (leN 2 (toU 16 ((A.tab b).maxId + 1)) ++ [t.code] ++ p)).file (D.withSym b p t) := by
  have ht := k.tabs b
  have hge := aa_ge n
  have hmn := aa_mod n
  have hmono : aa (p.length + 4) ≤ aa n := by unfold aa; omega
  have hmax : (A.tab b).maxId + 1 = ((D.syms b).length : Nat) := by rw [ht.max]; omega
  have hrl : recLen ⟨p, t⟩ = aa (p.length + 4) := rfl
  have hrg := recLen_ge ⟨p, t⟩
  simp only at hrg
  rw [hmax]
  generalize hM : memPut (memPut A.mem A.alloc (List.replicate (aa n) 0)) A.alloc (leN 2 (toU 16 ((D.syms b).length : Nat)) ++ [t.code] ++ p) = m
  have g : Got A { A.roomed n with mem := m } := roomed_got k.sees.ok hr fun i hi => by rw [← hM, memPut_frame _ _ _ _ (Or.inl hi), memPut_frame _ _ _ _ (Or.inl hi)]
  have hrec : Has m A.alloc (encRec (D.syms b).length ⟨p, t⟩) := by
    have hs : ∀ k', p.length + 3 + k' ≤ aa n → Has m A.alloc (leN 2 (toU 16 ((D.syms b).length : Nat)) ++ [t.code] ++ p ++ List.replicate k' 0) := by
      intro k' hk'
      rw [← hM, ← memPut_pad (n := k') fun i i1 i2 => ?_]
      · exact Has.self _ _ _
      · simp only [List.length_append, List.length_cons, List.length_nil, leN_length] at i1 i2
        exact memPut_zeros (by omega) (by omega)
    have := hs (1 + (recLen ⟨p, t⟩ - (p.length + 4))) (by omega)
    rw [← List.replicate_append_replicate, ← List.append_assoc] at this
    exact this
  have hb : Blank { A.roomed n with mem := m } D b (encRec (D.syms b).length ⟨p, t⟩) := by
    refine ⟨hn, hfew, hi, ?_, ?_⟩
    · rw [encRec_length]
      show (A.tab b).names + _ + _ ≤ A.alloc + aa n
      omega
    · show Has m ((A.tab b).names + _) _
      rw [he]; exact hrec
  have := named_recovers (E := E) (k.got g) low (s := ⟨p, t⟩) hg hb
  have e : A.begun b n (leN 2 (toU 16 ((D.syms b).length : Nat)) ++ [t.code] ++ p) = Pool.oneMore { A.roomed n with mem := m } b := by
    unfold Pool.begun
    rw [counted_mem, hM]
    cases b <;> rfl
  rw [e]
  exact this

end BX
