import Verif.Lemmas.Pool
import Verif.Lemmas.Rings
/-
The links stored in the memory of a pool, seen as functions.
-/
namespace BX
open XBT Spec

/-- the four link fields of an element -/
def IsPtr (k : Nat) : Prop := k = 8 ∨ k = 12 ∨ k = 16 ∨ k = 20

/-- changing field `k` of element `e` -/
def setV (V : Nat → Nat → Nat) (k e v : Nat) : Nat → Nat → Nat := fun j => if j = k then upd (V j) e v else V j

theorem setV_self (V : Nat → Nat → Nat) (k e v : Nat) : setV V k e v k = upd (V k) e v := by unfold setV; rw [if_pos rfl]
theorem setV_ne (V : Nat → Nat → Nat) {k j : Nat} (e v : Nat) (h : j ≠ k) : setV V k e v j = V j := by unfold setV; rw [if_neg h]

/-- the elements `els` of the pool have the links `V` (by field and element) and the flags `fl` -/
structure Sees (P : Pool) (els : List Nat) (V : Nat → Nat → Nat) (fl : Nat → UInt8) : Prop where
  ok : PoolOk P
  small : P.mmapSize < 2147483648
  range : ∀ e ∈ els, poolHeader ≤ e ∧ e + 24 ≤ P.alloc
  apart : ∀ e ∈ els, ∀ e' ∈ els, e ≠ e' → e + 24 ≤ e' ∨ e' + 24 ≤ e
  off : ∀ e ∈ els, Has P.mem e (le32 e)
  flag : ∀ e ∈ els, Has P.mem (e + 6) [fl e]
  ptr : ∀ e ∈ els, ∀ k, IsPtr k → Has P.mem (e + k) (le32 (V k e : Nat))
  bound : ∀ e ∈ els, ∀ k, IsPtr k → V k e < 2147483648

/-- only links and flags of elements differ -/
structure Only (P Q : Pool) (els : List Nat) : Prop where
  rest : Q = { P with mem := Q.mem }
  mem : ∀ a, (∀ e ∈ els, a < e + 6 ∨ a = e + 7 ∨ e + 24 ≤ a) → Q.mem a = P.mem a

theorem Only.refl (P : Pool) (els : List Nat) : Only P P els := ⟨rfl, fun _ _ => rfl⟩
theorem Only.trans {P Q R : Pool} {els : List Nat} (h : Only P Q els) (h' : Only Q R els) : Only P R els :=
  ⟨by rw [h'.rest, h.rest], fun a ha => by rw [h'.mem a ha, h.mem a ha]⟩

theorem Sees.size {P : Pool} {els V fl} (h : Sees P els V fl) : P.alloc ≤ P.fileSize ∧ P.fileSize < 2147483648 := by
  have := h.ok.le; have := h.ok.lim; have := h.ok.map; have := h.small
  omega

theorem isI32_of_lt {v : Nat} (h : v < 2147483648) : isI32 v := by unfold isI32 INT_MIN INT_MAX; omega

theorem Sees.get {P : Pool} {els V fl} (h : Sees P els V fl) {e k : Nat} (he : e ∈ els) (hk : IsPtr k) (A : Int) (hA : A = e + k) : P.img.i32 A = .ok (V k e : Nat) := by
  have := h.range e he
  have := h.size
  have hk' := hk
  unfold IsPtr at hk'
  exact Img.i32_ok (f := P.img) (h.ptr e he k hk) (by show e + k + 4 ≤ P.fileSize; omega) (isI32_of_lt (h.bound e he k hk)) A (by omega)

theorem Sees.offset {P : Pool} {els V fl} (h : Sees P els V fl) {e : Nat} (he : e ∈ els) : P.eOffset e = .ok (e : Int) := by
  have := h.range e he
  have := h.size
  exact Img.i32_ok (f := P.img) (h.off e he) (by show e + 4 ≤ P.fileSize; omega) (isI32_of_lt (by omega)) _ rfl

theorem Sees.bwe {P : Pool} {els V fl} (h : Sees P els V fl) {e : Nat} (he : e ∈ els) (x : Int) : P.bwe e x = .ok x := by
  unfold Pool.bwe
  rw [h.offset he]
  simp only [Out.ok_bind, Out.pure_eq]
  congr 1; omega

theorem Sees.flags {P : Pool} {els V fl} (h : Sees P els V fl) {e : Nat} (he : e ∈ els) : P.eFlags e = .ok (fl e) := by
  have := h.range e he
  have := h.size
  exact Img.u8_ok (f := P.img) (h.flag e he) (by show e + 6 + 1 ≤ P.fileSize; omega) _ (by omega)

theorem Pool.wr_eq {P : Pool} {a : Nat} {bs : List UInt8} (h : a + bs.length ≤ P.fileSize) (A : Int) (hA : A = a) :
    P.wr A bs = .ok { P with mem := memPut P.mem a bs } := by
  unfold Pool.wr
  rw [if_neg (by omega), hA, Int.toNat_natCast, put_eq h]
  rfl

theorem Pool.wr_ok {P Q : Pool} {A : Int} {bs : List UInt8} (h : P.wr A bs = .ok Q) :
    ∃ a : Nat, A = a ∧ a + bs.length ≤ P.fileSize ∧ Q = { P with mem := memPut P.mem a bs } := by
  unfold Pool.wr at h
  split at h
  · cases h
  · obtain ⟨m, h1, h2⟩ := Out.bind_eq_ok h
    obtain ⟨rfl, h3⟩ := put_ok h1
    simp only [Out.pure_eq, Out.ok.injEq] at h2
    exact ⟨A.toNat, by omega, h3, h2.symm⟩

theorem PoolOk.mem {P : Pool} (h : PoolOk P) (m : Mem) : PoolOk { P with mem := m } := ⟨h.1, h.2, h.3, h.4, h.5, h.6⟩

/-- writing a link -/
theorem Sees.set {P : Pool} {els V fl} (h : Sees P els V fl) {e k v : Nat} (he : e ∈ els) (hk : IsPtr k) (hv : v < 2147483648) (A B : Int) (hA : A = e + k) (hB : B = v) :
    ∃ Q, P.wr A (le32 B) = .ok Q ∧ Sees Q els (setV V k e v) fl ∧ Only P Q els := by
  subst hB
  have h1 := h.range e he
  have h2 := h.size
  have hk' := hk
  unfold IsPtr at hk'
  have hl : (le32 (v : Int)).length = 4 := by simp
  refine ⟨_, P.wr_eq (a := e + k) (by rw [hl]; omega) A (by omega), ⟨h.ok.mem _, h.small, h.range, h.apart, ?_, ?_, ?_, ?_⟩, rfl, ?_⟩
  · intro e' he'
    refine (h.off e' he').frame ?_
    rw [hl, show (le32 (e' : Int)).length = 4 by simp]
    by_cases hee : e' = e
    · omega
    · have := h.apart e' he' e he hee; omega
  · intro e' he'
    refine (h.flag e' he').frame ?_
    simp only [hl, List.length_singleton]
    by_cases hee : e' = e
    · omega
    · have := h.apart e' he' e he hee; omega
  · intro e' he' j hj
    by_cases hee : e' = e ∧ j = k
    · obtain ⟨rfl, rfl⟩ := hee
      rw [setV_self, upd_self]
      exact Has.self _ _ _
    · have hval : setV V k e v j e' = V j e' := by
        unfold setV
        split
        · rename_i hjk
          exact upd_ne _ _ (fun h' => hee ⟨h', hjk⟩)
        · rfl
      rw [hval]
      refine (h.ptr e' he' j hj).frame ?_
      rw [hl, show (le32 ((V j e' : Nat) : Int)).length = 4 by simp]
      unfold IsPtr at hj
      by_cases hee' : e' = e
      · have : j ≠ k := fun h' => hee ⟨hee', h'⟩
        omega
      · have := h.apart e' he' e he hee'; omega
  · intro e' he' j hj
    unfold setV
    split
    · unfold upd
      split
      · exact hv
      · exact h.bound e' he' j hj
    · exact h.bound e' he' j hj
  · intro a ha
    refine memPut_frame _ _ _ _ ?_
    have := ha e he
    rw [hl]; omega

/-- writing the flags -/
theorem Sees.setFlags {P : Pool} {els V fl} (h : Sees P els V fl) {e : Nat} (he : e ∈ els) (x : UInt8) (A : Int) (hA : A = e + 6) :
    ∃ Q, P.wr A [x] = .ok Q ∧ Sees Q els V (fun y => if y = e then x else fl y) ∧ Only P Q els := by
  have h1 := h.range e he
  have h2 := h.size
  refine ⟨_, P.wr_eq (a := e + 6) (by simp; omega) A (by omega), ⟨h.ok.mem _, h.small, h.range, h.apart, ?_, ?_, ?_, h.bound⟩, rfl, ?_⟩
  · intro e' he'
    refine (h.off e' he').frame ?_
    rw [show (le32 (e' : Int)).length = 4 by simp]
    by_cases hee : e' = e
    · omega
    · have := h.apart e' he' e he hee; simp only [List.length_singleton]; omega
  · intro e' he'
    by_cases hee : e' = e
    · subst hee
      rw [if_pos rfl]
      exact Has.self _ _ _
    · rw [if_neg hee]
      refine (h.flag e' he').frame ?_
      have := h.apart e' he' e he hee
      simp only [List.length_singleton]; omega
  · intro e' he' j hj
    refine (h.ptr e' he' j hj).frame ?_
    rw [show (le32 ((V j e' : Nat) : Int)).length = 4 by simp]
    unfold IsPtr at hj
    simp only [List.length_singleton]
    by_cases hee : e' = e
    · omega
    · have := h.apart e' he' e he hee; omega
  · intro a ha
    refine memPut_frame _ _ _ _ ?_
    have := ha e he
    simp only [List.length_singleton]; omega

theorem ptr8 : IsPtr 8 := Or.inl rfl
theorem ptr12 : IsPtr 12 := Or.inr (Or.inl rfl)
theorem ptr16 : IsPtr 16 := Or.inr (Or.inr (Or.inl rfl))
theorem ptr20 : IsPtr 20 := Or.inr (Or.inr (Or.inr rfl))

theorem Sees.nx {P : Pool} {els V fl} (h : Sees P els V fl) {e : Nat} (he : e ∈ els) : P.eNext e = .ok (V 8 e : Nat) := h.get he ptr8 _ rfl
theorem Sees.pv {P : Pool} {els V fl} (h : Sees P els V fl) {e : Nat} (he : e ∈ els) : P.ePrev e = .ok (V 12 e : Nat) := h.get he ptr12 _ rfl
theorem Sees.child {P : Pool} {els V fl} (h : Sees P els V fl) {e : Nat} (he : e ∈ els) : P.eChild e = .ok (V 16 e : Nat) := h.get he ptr16 _ rfl
theorem Sees.set8 {P : Pool} {els V fl} (h : Sees P els V fl) {e v : Nat} (he : e ∈ els) (hv : v < 2147483648) :
    ∃ Q, P.wr ((e : Int) + 8) (le32 (v : Int)) = .ok Q ∧ Sees Q els (setV V 8 e v) fl ∧ Only P Q els := h.set he ptr8 hv _ _ rfl rfl
theorem Sees.set12 {P : Pool} {els V fl} (h : Sees P els V fl) {e v : Nat} (he : e ∈ els) (hv : v < 2147483648) :
    ∃ Q, P.wr ((e : Int) + 12) (le32 (v : Int)) = .ok Q ∧ Sees Q els (setV V 12 e v) fl ∧ Only P Q els := h.set he ptr12 hv _ _ rfl rfl

theorem listField_ptr (f : UInt8) : IsPtr (listField f) := by
  unfold listField; split
  · exact ptr16
  · exact ptr20

theorem Sees.lt {P : Pool} {els V fl} (h : Sees P els V fl) {e : Nat} (he : e ∈ els) : 0 < e ∧ e < 2147483648 := by
  have := h.range e he; have := h.size; unfold poolHeader at *; omega

/-- what `join` does to the links -/
def joinV (V : Nat → Nat → Nat) (a b : Nat) : Nat → Nat → Nat :=
  setV (setV (setV (setV V 12 a (V 12 b)) 12 b (V 12 a)) 8 (V 12 b) a) 8 (V 12 a) b

theorem join_sees {P : Pool} {els V fl} (h : Sees P els V fl) {a b : Nat} (ha : a ∈ els) (hb : b ∈ els) (hap : V 12 a ∈ els) (hbp : V 12 b ∈ els) :
    ∃ Q, P.join a b = .ok Q ∧ Sees Q els (joinV V a b) fl ∧ Only P Q els := by
  have la := h.lt ha
  have lb := h.lt hb
  have lap := h.lt hap
  have lbp := h.lt hbp
  unfold Pool.join
  rw [h.pv ha, h.pv hb, h.offset ha, h.offset hb]
  simp only [Out.ok_bind]
  rw [if_neg (by omega)]
  obtain ⟨P1, e1, s1, o1⟩ := h.set12 ha lbp.2
  rw [e1, Out.ok_bind]
  obtain ⟨P2, e2, s2, o2⟩ := s1.set12 hb lap.2
  rw [e2, Out.ok_bind, s2.bwe ha, Out.ok_bind]
  obtain ⟨P3, e3, s3, o3⟩ := s2.set8 hbp la.2
  rw [e3, Out.ok_bind, s3.bwe ha, Out.ok_bind]
  obtain ⟨P4, e4, s4, o4⟩ := s3.set8 hap lb.2
  exact ⟨P4, e4, s4, ((o1.trans o2).trans o3).trans o4⟩

/-- what `add` does to the links -/
def addV (V : Nat → Nat → Nat) (f p t : Nat) : Nat → Nat → Nat :=
  if V f p = 0 then setV V f p t else joinV V (V f p) t

theorem add_sees {P : Pool} {els V fl} (h : Sees P els V fl) {p t : Nat} (hp : p ∈ els) (ht : t ∈ els) (htp : V 12 t ∈ els)
    (hf : V (listField (fl t)) p ≠ 0 → V (listField (fl t)) p ∈ els ∧ V 12 (V (listField (fl t)) p) ∈ els) :
    ∃ Q, P.add p (some (t : Int)) = .ok Q ∧ Sees Q els (addV V (listField (fl t)) p t) fl ∧ Only P Q els := by
  unfold Pool.add addV
  simp only
  rw [h.flags ht, Out.ok_bind, h.get hp (listField_ptr _) _ rfl, Out.ok_bind]
  by_cases h0 : V (listField (fl t)) p = 0
  · rw [if_pos (by omega), if_pos h0, h.offset ht, Out.ok_bind]
    exact h.set hp (listField_ptr _) (h.lt ht).2 _ _ rfl rfl
  · rw [if_neg (by omega), if_neg h0, h.bwe hp, Out.ok_bind]
    obtain ⟨h1, h2⟩ := hf h0
    obtain ⟨Q, e, s⟩ := join_sees h h1 ht h2 htp
    rw [e]
    exact ⟨Q, rfl, s⟩

/-- what `remove` does to the links -/
def removeV1 (V : Nat → Nat → Nat) (f p t : Nat) : Nat → Nat → Nat :=
  if V f p = t then setV V f p (if V 8 t = t ∧ V 12 t = t then 0 else V 8 t) else V
def removeV (V : Nat → Nat → Nat) (f p t : Nat) : Nat → Nat → Nat :=
  let V1 := removeV1 V f p t
  let V2 := setV V1 8 (V1 12 t) (V1 8 t)
  let V3 := setV V2 12 (V2 8 t) (V2 12 t)
  setV (setV V3 12 t t) 8 t t

theorem removeV1_link {V : Nat → Nat → Nat} {f p t k : Nat} (hf : f = 16 ∨ f = 20) (hk : k = 8 ∨ k = 12) : removeV1 V f p t k = V k := by
  unfold removeV1
  split
  · exact setV_ne _ _ _ (by omega)
  · rfl

theorem listField_or (f : UInt8) : listField f = 16 ∨ listField f = 20 := by
  unfold listField; split <;> simp

theorem remove_sees {P : Pool} {els V fl} (h : Sees P els V fl) {p t : Nat} (hp : p ∈ els) (ht : t ∈ els) (htp : V 12 t ∈ els) (htn : V 8 t ∈ els)
    (hf : V (listField (fl t)) p ≠ 0) :
    ∃ Q, P.remove p (some (t : Int)) = .ok Q ∧ Sees Q els (removeV V (listField (fl t)) p t) (fun y => if y = t then fl t ||| 8 else fl y) ∧ Only P Q els := by
  have hhead : ∃ Q, P.removeHead p (listField (fl t)) t t (V (listField (fl t)) p : Nat) = .ok Q ∧ Sees Q els (removeV1 V (listField (fl t)) p t) fl ∧ Only P Q els := by
    unfold Pool.removeHead removeV1
    by_cases h0 : V (listField (fl t)) p = t
    · rw [if_pos (by omega), if_pos h0]
      rw [h.nx ht, Out.ok_bind, h.pv ht, Out.ok_bind]
      refine h.set hp (listField_ptr _) ?_ _ _ rfl ?_
      · split
        · omega
        · exact (h.lt htn).2
      · by_cases h1 : V 8 t = t ∧ V 12 t = t
        · rw [if_pos h1, if_pos (by omega)]; rfl
        · rw [if_neg h1, if_neg (by omega)]
    · rw [if_neg (by omega), if_neg h0]
      exact ⟨P, rfl, h, Only.refl _ _⟩
  unfold Pool.remove removeV
  simp only
  rw [h.flags ht, Out.ok_bind, h.get hp (listField_ptr _) _ rfl, Out.ok_bind, if_neg (by omega), h.offset ht, Out.ok_bind]
  obtain ⟨P1, e1, s1, o1⟩ := hhead
  rw [e1, Out.ok_bind]
  have w8 := removeV1_link (V := V) (p := p) (t := t) (listField_or (fl t)) (k := 8) (by omega)
  have w12 := removeV1_link (V := V) (p := p) (t := t) (listField_or (fl t)) (k := 12) (by omega)
  rw [s1.pv ht, Out.ok_bind, s1.nx ht, Out.ok_bind, s1.bwe hp, Out.ok_bind]
  obtain ⟨P2, e2, s2, o2⟩ := s1.set8 (e := removeV1 V (listField (fl t)) p t 12 t) (by rw [w12]; exact htp) (s1.bound t ht 8 ptr8)
  rw [e2, Out.ok_bind, s2.nx ht, Out.ok_bind, s2.pv ht, Out.ok_bind, s2.bwe hp, Out.ok_bind]
  have hm : setV (removeV1 V (listField (fl t)) p t) 8 (removeV1 V (listField (fl t)) p t 12 t) (removeV1 V (listField (fl t)) p t 8 t) 8 t ∈ els := by
    rw [setV_self, w8]
    unfold upd
    split
    · exact htn
    · exact htn
  obtain ⟨P3, e3, s3, o3⟩ := s2.set12 hm (s2.bound t ht 12 ptr12)
  rw [e3, Out.ok_bind]
  obtain ⟨P4, e4, s4, o4⟩ := s3.set12 ht (h.lt ht).2
  rw [e4, Out.ok_bind]
  obtain ⟨P5, e5, s5, o5⟩ := s4.set8 ht (h.lt ht).2
  rw [e5, Out.ok_bind, s5.flags ht, Out.ok_bind]
  obtain ⟨P6, e6, s6, o6⟩ := s5.setFlags ht (fl t ||| 8) _ rfl
  exact ⟨P6, e6, s6, ((((o1.trans o2).trans o3).trans o4).trans o5).trans o6⟩

/-- what `replace` does to the links -/
def replaceV1 (V : Nat → Nat → Nat) (f p t n : Nat) : Nat → Nat → Nat := if V f p = t then setV V f p n else V
def replaceV (V : Nat → Nat → Nat) (p t n : Nat) : Nat → Nat → Nat :=
  let V1 := setV V 8 n (V 8 t)
  let V2 := setV V1 12 n (V1 12 t)
  let V3 := setV V2 12 (V2 8 n) n
  let V4 := setV V3 8 (V3 12 n) n
  let V5 := setV (setV V4 12 t t) 8 t t
  replaceV1 (replaceV1 V5 16 p t n) 20 p t n

theorem replaceHead_sees {P : Pool} {els V fl} (h : Sees P els V fl) {p t n f : Nat} (hp : p ∈ els) (hn : n ∈ els) (hf : IsPtr f) :
    ∃ Q, P.replaceHead p f t n = .ok Q ∧ Sees Q els (replaceV1 V f p t n) fl ∧ Only P Q els := by
  unfold Pool.replaceHead replaceV1
  rw [h.get hp hf _ rfl, Out.ok_bind]
  by_cases h0 : V f p = t
  · rw [if_pos (by omega), if_pos h0]
    exact h.set hp hf (h.lt hn).2 _ _ rfl rfl
  · rw [if_neg (by omega), if_neg h0]
    exact ⟨P, rfl, h, Only.refl _ _⟩

theorem replace_sees {P : Pool} {els V fl} (h : Sees P els V fl) {p t n : Nat} (hp : p ∈ els) (ht : t ∈ els) (hn : n ∈ els) (htn : t ≠ n) (htp : V 12 t ∈ els) (htx : V 8 t ∈ els)
    (hn8 : V 8 n = n) (hn12 : V 12 n = n) (hpn : V 12 t ≠ t) (hxn : V 8 t ≠ n) :
    ∃ Q, P.replace p t n = .ok Q ∧ Sees Q els (replaceV V p t n) (fun y => if y = t then fl t ||| 8 else fl y) ∧ Only P Q els := by
  unfold Pool.replace replaceV
  simp only
  rw [h.offset hn, Out.ok_bind, h.nx hn, Out.ok_bind, h.pv hn, Out.ok_bind, if_neg (by omega), h.nx ht, Out.ok_bind]
  obtain ⟨P1, e1, s1, o1⟩ := h.set8 hn (h.lt htx).2
  rw [e1, Out.ok_bind, s1.pv ht, Out.ok_bind]
  obtain ⟨P2, e2, s2, o2⟩ := s1.set12 hn (s1.bound t ht 12 ptr12)
  rw [e2, Out.ok_bind, s2.nx hn, Out.ok_bind, s2.bwe hp, Out.ok_bind]
  obtain ⟨P3, e3, s3, o3⟩ := s2.set12 (e := setV (setV V 8 n (V 8 t)) 12 n (setV V 8 n (V 8 t) 12 t) 8 n) (by rw [setV_ne _ _ _ (by omega), setV_self, upd_self]; exact htx) (h.lt hn).2
  rw [e3, Out.ok_bind, s3.pv hn, Out.ok_bind, s3.bwe hp, Out.ok_bind]
  have hm : setV (setV (setV V 8 n (V 8 t)) 12 n (setV V 8 n (V 8 t) 12 t)) 12 (setV (setV V 8 n (V 8 t)) 12 n (setV V 8 n (V 8 t) 12 t) 8 n) n 12 n ∈ els := by
    rw [setV_self]
    unfold upd
    split
    · exact hn
    · rw [setV_self, upd_self, setV_ne _ _ _ (by omega)]; exact htp
  obtain ⟨P4, e4, s4, o4⟩ := s3.set8 hm (h.lt hn).2
  rw [e4, Out.ok_bind, s4.flags ht, Out.ok_bind]
  obtain ⟨P5, e5, s5, o5⟩ := s4.setFlags ht (fl t ||| 8) _ rfl
  rw [e5, Out.ok_bind, s5.offset ht, Out.ok_bind]
  obtain ⟨P6, e6, s6, o6⟩ := s5.set12 ht (h.lt ht).2
  rw [e6, Out.ok_bind]
  obtain ⟨P7, e7, s7, o7⟩ := s6.set8 ht (h.lt ht).2
  rw [e7, Out.ok_bind]
  obtain ⟨P8, e8, s8, o8⟩ := replaceHead_sees (t := t) s7 hp hn ptr16
  rw [e8, Out.ok_bind]
  obtain ⟨P9, e9, s9, o9⟩ := replaceHead_sees (t := t) s8 hp hn ptr20
  exact ⟨P9, e9, s9, (((((((o1.trans o2).trans o3).trans o4).trans o5).trans o6).trans o7).trans o8).trans o9⟩

end BX
