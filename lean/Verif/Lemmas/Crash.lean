import Verif.Props.Rings
import Verif.Lemmas.Attrs
import Verif.Spec.Crash
/-
Links stored one by one.
-/
namespace BX
open XBT Spec

/-- a store of a link or of flags -/
inductive LStore where
  | link (k e v : Nat)
  | flag (e : Nat) (x : UInt8)

def LStore.store : LStore → Store
  | .link k e v => .word (e + k) v
  | .flag e x => .byte (e + 6) x

def LStore.ok (els : List Nat) : LStore → Prop
  | .link k e v => e ∈ els ∧ IsPtr k ∧ v < 2147483648
  | .flag e _ => e ∈ els

def LStore.links (V : Nat → Nat → Nat) : LStore → Nat → Nat → Nat
  | .link k e v => setV V k e v
  | .flag _ _ => V

/-- the links after some stores -/
def setVs (V : Nat → Nat → Nat) (xs : List LStore) : Nat → Nat → Nat := xs.foldl LStore.links V

theorem run_links {els : List Nat} : ∀ (xs : List LStore) {P : Pool} {V : Nat → Nat → Nat} {fl : Nat → UInt8}, Sees P els V fl → (∀ x ∈ xs, x.ok els) →
    ∃ C fl', P.stores (xs.map LStore.store) = .ok C ∧ Sees C els (setVs V xs) fl' ∧ Only P C els
  | [], P, V, fl, s, _ => ⟨P, fl, rfl, s, Only.refl _ _⟩
  | .link k e v :: xs, P, V, fl, s, h => by
    obtain ⟨h1, h2, h3⟩ := h (.link k e v) (by simp)
    obtain ⟨Q, q1, q2, q3⟩ := s.set h1 h2 h3 _ _ rfl rfl
    obtain ⟨C, fl', c1, c2, c3⟩ := run_links xs q2 (fun x hx => h x (List.mem_cons_of_mem _ hx))
    refine ⟨C, fl', ?_, c2, q3.trans c3⟩
    show (P.wr _ _ >>= fun Q => Q.stores _) = _
    rw [q1, Out.ok_bind, c1]
  | .flag e v :: xs, P, V, fl, s, h => by
    have h1 : e ∈ els := h (.flag e v) (by simp)
    obtain ⟨Q, q1, q2, q3⟩ := s.setFlags h1 v _ rfl
    obtain ⟨C, fl', c1, c2, c3⟩ := run_links xs q2 (fun x hx => h x (List.mem_cons_of_mem _ hx))
    refine ⟨C, fl', ?_, c2, q3.trans c3⟩
    show (P.wr _ _ >>= fun Q => Q.stores _) = _
    rw [q1, Out.ok_bind, c1]

/-- a process killed while it stores links has stored the first of them -/
theorem killed_links {els : List Nat} {xs : List LStore} {P C : Pool} {V : Nat → Nat → Nat} {fl : Nat → UInt8} (s : Sees P els V fl) (h : ∀ x ∈ xs, x.ok els)
    (hk : P.KilledIn (xs.map LStore.store) C) : ∃ j fl', P.stores ((xs.take j).map LStore.store) = .ok C ∧ Sees C els (setVs V (xs.take j)) fl' ∧ Only P C els := by
  obtain ⟨done, rest, e, hk⟩ := hk
  obtain ⟨ys, zs, rfl, rfl, rfl⟩ := List.map_eq_append_iff.1 e
  have hj : (ys ++ zs).take ys.length = ys := by simp
  rcases hk with hk | ⟨a, bs, rest', Q, m, hr, -⟩
  · refine ⟨ys.length, ?_⟩
    rw [hj]
    obtain ⟨C', fl', c1, c2, c3⟩ := run_links ys s (fun x hx => h x (List.mem_append_left _ hx))
    rw [hk] at c1
    cases c1
    exact ⟨fl', hk, c2, c3⟩
  · exfalso
    cases zs with
    | nil => simp at hr
    | cons z zs =>
      simp only [List.map_cons, List.cons.injEq] at hr
      cases z <;> simp [LStore.store] at hr

/-- … and any number of them may have been stored -/
theorem links_killed {xs : List LStore} {P C : Pool} {j : Nat} (h : P.stores ((xs.take j).map LStore.store) = .ok C) : P.KilledIn (xs.map LStore.store) C :=
  ⟨(xs.take j).map LStore.store, (xs.drop j).map LStore.store, by rw [← List.map_append, List.take_append_drop], Or.inl h⟩

/-- the links of elements are what is in memory -/
theorem Sees.agree {P : Pool} {els V V' fl fl'} (s : Sees P els V fl) (s' : Sees P els V' fl') {e k : Nat} (he : e ∈ els) (hk : IsPtr k) : V k e = V' k e := by
  have h := s.get he hk _ rfl
  rw [s'.get he hk _ rfl] at h
  simp only [Out.ok.injEq] at h
  omega

/-! ### what is shown -/

/-- following the links forwards, the lists of the elements are those of `F` -/
structure Ahead (F : Forest) (els : List Nat) (V : Nat → Nat → Nat) : Prop where
  mem : ∀ e, F.Elem e ↔ e ∈ els
  head : ∀ p ∈ els, ∀ k, k = 16 ∨ k = 20 → V k p = (F.at' (lst k p)).headD 0
  nodup : ∀ q, (F.at' q).Nodup
  ring : ∀ k p, ∃ pv, Circle (V 8) pv (F.at' (lst k p))

theorem Lists.ahead {F : Forest} {els V V' fl} (r : Lists F els V fl) (hh : ∀ p ∈ els, ∀ k, k = 16 ∨ k = 20 → V' k p = V k p)
    (hn : ∀ k p, ∀ x ∈ F.at' (lst k p), V' 8 x = V 8 x) : Ahead F els V' :=
  ⟨r.mem, fun p hp k hk => by rw [hh p hp k hk]; exact r.head p hp k hk, r.nodup, fun k p => ⟨V 12, Ring_congr (hn k p) (fun _ _ => rfl) (r.ring _)⟩⟩

theorem ahead_forwards {P : Pool} {F : Forest} {els V fl} (s : Sees P els V fl) (r : Ahead F els V) {p : Nat} (hp : p ∈ els) {fuel : Nat} (hf : (F.at' (.kids p)).length < fuel) :
    P.forwards p fuel 0 = .ok ((F.at' (.kids p)).map Int.ofNat) := by
  have hh := r.head p hp 16 (Or.inl rfl)
  replace hh : V 16 p = (F.at' (.kids p)).headD 0 := hh
  obtain ⟨pv, hr⟩ := r.ring 16 p
  replace hr : Circle (V 8) pv (F.at' (.kids p)) := hr
  have hn := r.nodup (.kids p)
  have hm : ∀ x ∈ F.at' (.kids p), x ∈ els := fun x hx => (r.mem x).1 ⟨_, hx⟩
  obtain ⟨n, rfl⟩ : ∃ n, fuel = n + 1 := ⟨fuel - 1, by omega⟩
  cases hl : F.at' (.kids p) with
  | nil =>
    rw [hl] at hh
    replace hh : V 16 p = 0 := hh
    unfold Pool.forwards Pool.nextChild
    rw [s.child hp, Out.ok_bind, if_pos rfl, hh, if_pos (by simp)]
    rfl
  | cons a l =>
    rw [hl] at hh hr hn hm hf
    have ha := hm a (by simp)
    have ha0 := s.lt ha
    have hh : V 16 p = a := hh
    have := forwards_from s hp hh l a n hr hm (List.nodup_cons.1 hn).1 (by simp at hf; omega)
    unfold Pool.forwards Pool.nextChild
    rw [s.child hp, Out.ok_bind, if_pos rfl, hh, if_neg (by omega), s.bwe hp, Out.ok_bind]
    simp only [Out.pure_eq, Out.ok_bind, this]
    rfl

theorem ahead_list {P : Pool} {F : Forest} {els V fl} (s : Sees P els V fl) (r : Ahead F els V) {p : Nat} (hp : p ∈ els) {k : Nat} (hk : k = 16 ∨ k = 20) {fuel : Nat}
    (hf : (F.at' (lst k p)).length < fuel) : P.listAt p k fuel = .ok ((F.at' (lst k p)).map Int.ofNat) := by
  have hh := r.head p hp k hk
  obtain ⟨pv, hr⟩ := r.ring k p
  have hn := r.nodup (lst k p)
  have hm : ∀ x ∈ F.at' (lst k p), x ∈ els := fun x hx => (r.mem x).1 ⟨_, hx⟩
  have hk' : IsPtr k := by unfold IsPtr; omega
  unfold Pool.listAt
  rw [s.get hp hk' _ rfl, Out.ok_bind]
  cases hl : F.at' (lst k p) with
  | nil => rw [hl] at hh; replace hh : V k p = 0 := hh; rw [hh, if_pos (by simp)]; rfl
  | cons a l =>
    rw [hl] at hh hr hn hm hf
    have ha := hm a (by simp)
    have ha0 := s.lt ha
    have hh : V k p = a := hh
    rw [hh, if_neg (by omega), s.bwe hp, Out.ok_bind]
    exact ringLoop_from s hp l a fuel hr hm (List.nodup_cons.1 hn).1 (by simp at hf; omega)

/-- the pool, except for the links of its elements, holds the document -/
structure HoldsDoc (P : Pool) (D : Doc) (els : List Nat) : Prop where
  tabs : ∀ b, TabOk P (P.tab b) (D.syms b)
  rdy : ∀ b, D.ready b = true → D.syms b ≠ [] → (P.tab b).index ≠ 0
  elem : ∀ e ∈ els, ElemAt P e (D.id e) (D.type e) (D.val e)
  root : P.root = D.root

theorem Keeps.holds {P : Pool} {D : Doc} {els V fl} (h : Keeps P D els V fl) : HoldsDoc P D els := ⟨h.tabs, h.rdy, h.elem, h.root⟩

/-- links of elements have changed -/
theorem Keeps.only {P Q : Pool} {D : Doc} {els V fl} (h : Keeps P D els V fl) (h3 : Only P Q els) : HoldsDoc Q D els := by
  have hrest := h3.rest
  have htab : ∀ b, Q.tab b = P.tab b := fun b => by rw [hrest]; rfl
  have hal : Q.alloc = P.alloc := by rw [hrest]
  have hne : ∀ k i, inPart P D k i → (∀ e, k = .elem e → i < e + 6 ∨ i = e + 7 ∨ e + 24 ≤ i) → Q.mem i = P.mem i := by
    intro k i hi hk
    refine h3.mem i fun e he => ?_
    by_cases hin : e ≤ i ∧ i < e + 24 + (D.val e).length
    · exact hk e (h.apart k (.elem e) i hi (h.inElem he hin.1 hin.2))
    · omega
  refine ⟨fun b => ?_, fun b => ?_, fun e he => ?_, by rw [hrest]; exact h.root⟩
  · rw [htab]
    refine (h.tabs b).frame (by omega) fun i hi => ?_
    rcases hi with hi | hi
    · exact hne (.names b) i hi (by simp)
    · exact hne (.index b) i hi (by simp)
  · rw [htab]; exact h.rdy b
  · refine (h.elem e he).frame (by omega) fun i hi => hne (.elem e) i (h.inElem he (by omega) ?_) ?_
    · omega
    · intro e' he'
      simp only [Part.elem.injEq] at he'
      omega

theorem HoldsDoc.same {P : Pool} {D : Doc} {els V fl} (s : Sees P els V fl) (h : HoldsDoc P D els) {m : Mem} (hm : ∀ i, poolHeader ≤ i → m i = P.mem i) : HoldsDoc { P with mem := m } D els := by
  refine ⟨fun b => ?_, h.rdy, fun e he => ?_, h.root⟩
  · exact (h.tabs b).frame (Q := { P with mem := m }) (Nat.le_refl _) fun i hi => hm i ((h.tabs b).lt hi).1
  · have := (s.range e he).1
    exact (h.elem e he).frame (Nat.le_refl _) fun i hi => hm i (by omega)

theorem HoldsDoc.shows {P : Pool} {D : Doc} {els V fl} (h : HoldsDoc P D els) (s : Sees P els V fl) (r : Ahead D.forest els V) : Shows P D := by
  have hal := s.ok.le; have hlim := s.ok.lim
  refine ⟨h.root, fun p hp fuel hf => ahead_forwards s r ((r.mem p).1 hp) hf, fun p hp fuel hf => ahead_list s r ((r.mem p).1 hp) (Or.inr rfl) hf, ?_, ?_, ?_, ?_⟩
  · intro p hp
    exact (h.elem p ((r.mem p).1 hp)).eId s.size.1
  · intro p hp
    have he := h.elem p ((r.mem p).1 hp)
    have := he.hi
    exact Img.u8_ok (f := P.img) he.ty (by show p + 7 + 1 ≤ P.fileSize; omega) _ (by omega)
  · intro p hp
    have he := h.elem p ((r.mem p).1 hp)
    have := he.hi
    exact Img.rd_ok (f := P.img) he.val (by show p + 24 + _ ≤ P.fileSize; omega) _ (by omega) _ rfl
  · intro b hb i hi
    have hx := h.rdy b hb (by rintro he; rw [he] at hi; simp at hi)
    exact ⟨symName_ok s.ok s.small (h.tabs b) hx hi, symType_ok s.ok s.small (h.tabs b) hx hi⟩

/-- such a pool can be opened again -/
theorem HoldsDoc.opens {E : Env} {C : Pool} {D : Doc} {els V fl} (h : HoldsDoc C D els) (s : Sees C els V fl) (low : D.root < 2147483648) (n : Nat) :
    openFile E false n C.file = .ok (some ⟨{ C with mem := C.file.mem }, true, 0⟩) ∧ HoldsDoc { C with mem := C.file.mem } D els ∧ Sees { C with mem := C.file.mem } els V fl := by
  refine ⟨openFile_ok s.ok s.small h.tabs (by rw [h.root]; exact low), h.same s (file_mem C), ?_⟩
  refine s.frame (s.ok.mem _) (Nat.le_refl _) rfl fun e he i i1 i2 => file_mem C i ?_
  have := (s.range e he).1
  unfold poolHeader at this; omega

theorem HoldsDoc.opensAs {E : Env} {C : Pool} {D : Doc} {els V fl} (h : HoldsDoc C D els) (s : Sees C els V fl) (low : D.root < 2147483648) {G : Forest} (r : Ahead G els V) {Ds : List Doc}
    (hm : { D with forest := G } ∈ Ds) : OpensAs E C.file Ds := by
  intro n
  obtain ⟨h1, h2, h3⟩ := h.opens (E := E) s low n
  refine ⟨_, h1, _, hm, ?_⟩
  have h2' : HoldsDoc { C with mem := C.file.mem } { D with forest := G } els := ⟨h2.tabs, h2.rdy, h2.elem, h2.root⟩
  exact h2'.shows h3 r

/-! ### the stores of the calls -/

/-- the stores of `join` -/
def joinX (V : Nat → Nat → Nat) (a b : Nat) : List LStore := [.link 12 a (V 12 b), .link 12 b (V 12 a), .link 8 (V 12 b) a, .link 8 (V 12 a) b]

theorem joinX_spec {P : Pool} {els V fl} (h : Sees P els V fl) {a b : Nat} (ha : a ∈ els) (hb : b ∈ els) (hap : V 12 a ∈ els) (hbp : V 12 b ∈ els) :
    P.joinStores a b = .ok ((joinX V a b).map LStore.store) ∧ P.stores ((joinX V a b).map LStore.store) = P.join a b ∧ ∀ x ∈ joinX V a b, x.ok els := by
  have la := h.lt ha
  have lb := h.lt hb
  have lap := h.lt hap
  have lbp := h.lt hbp
  refine ⟨?_, ?_, ?_⟩
  · unfold Pool.joinStores
    rw [h.pv ha, h.pv hb, h.offset ha, h.offset hb]
    simp only [Out.ok_bind]
    rw [if_neg (by omega), h.bwe ha, Out.ok_bind, h.bwe ha, Out.ok_bind]
    rfl
  · unfold Pool.join
    rw [h.pv ha, h.pv hb, h.offset ha, h.offset hb]
    simp only [Out.ok_bind]
    rw [if_neg (by omega)]
    show (P.wr _ _ >>= fun Q => Q.wr _ _ >>= fun Q => Q.wr _ _ >>= fun Q => Q.wr _ _ >>= fun Q => Q.stores []) = _
    obtain ⟨P1, e1, s1, o1⟩ := h.set12 ha lbp.2
    rw [show ((a : Int) + (12 : Nat)) = (a : Int) + 12 from rfl, e1, Out.ok_bind, Out.ok_bind]
    obtain ⟨P2, e2, s2, o2⟩ := s1.set12 hb lap.2
    rw [show ((b : Int) + (12 : Nat)) = (b : Int) + 12 from rfl, e2, Out.ok_bind, Out.ok_bind, s2.bwe ha, Out.ok_bind]
    obtain ⟨P3, e3, s3, o3⟩ := s2.set8 hbp la.2
    rw [show ((V 12 b : Int) + (8 : Nat)) = (V 12 b : Int) + 8 from rfl, e3, Out.ok_bind, Out.ok_bind, s3.bwe ha, Out.ok_bind]
    obtain ⟨P4, e4, s4, o4⟩ := s3.set8 hap lb.2
    rw [show ((V 12 a : Int) + (8 : Nat)) = (V 12 a : Int) + 8 from rfl, e4]
    rfl
  · intro x hx
    simp only [joinX, List.mem_cons, List.not_mem_nil, or_false] at hx
    rcases hx with rfl | rfl | rfl | rfl
    · exact ⟨ha, ptr12, lbp.2⟩
    · exact ⟨hb, ptr12, lap.2⟩
    · exact ⟨hbp, ptr8, la.2⟩
    · exact ⟨hap, ptr8, lb.2⟩

/-- the stores of `add` -/
def addX (V : Nat → Nat → Nat) (f p t : Nat) : List LStore := if V f p = 0 then [.link f p t] else joinX V (V f p) t

theorem addX_spec {P : Pool} {els V fl} (h : Sees P els V fl) {p t : Nat} (hp : p ∈ els) (ht : t ∈ els) (htp : V 12 t ∈ els)
    (hf : V (listField (fl t)) p ≠ 0 → V (listField (fl t)) p ∈ els ∧ V 12 (V (listField (fl t)) p) ∈ els) :
    P.addStores p t = .ok ((addX V (listField (fl t)) p t).map LStore.store) ∧ P.stores ((addX V (listField (fl t)) p t).map LStore.store) = P.add p (some (t : Int)) ∧
      ∀ x ∈ addX V (listField (fl t)) p t, x.ok els := by
  unfold Pool.addStores Pool.add addX
  simp only
  rw [h.flags ht, Out.ok_bind, Out.ok_bind, h.get hp (listField_ptr _) _ rfl, Out.ok_bind, Out.ok_bind]
  by_cases h0 : V (listField (fl t)) p = 0
  · rw [if_pos (by omega), if_pos h0, if_pos (by omega), h.offset ht, Out.ok_bind, Out.ok_bind]
    refine ⟨rfl, ?_, ?_⟩
    · show (P.wr _ _ >>= fun Q => Q.stores []) = _
      obtain ⟨Q, q1, -⟩ := h.set hp (listField_ptr (fl t)) (h.lt ht).2 _ _ rfl rfl
      rw [q1]; rfl
    · intro x hx
      simp only [List.mem_cons, List.not_mem_nil, or_false] at hx
      subst hx
      exact ⟨hp, listField_ptr _, (h.lt ht).2⟩
  · rw [if_neg (by omega), if_neg h0, if_neg (by omega), h.bwe hp, Out.ok_bind, Out.ok_bind]
    obtain ⟨h1, h2⟩ := hf h0
    obtain ⟨j1, j2, j3⟩ := joinX_spec h h1 ht h2 htp
    refine ⟨j1, ?_, j3⟩
    obtain ⟨Q, e, s⟩ := join_sees h h1 ht h2 htp
    rw [j2, e]

/-- the stores of `remove` -/
def removeX0 (V : Nat → Nat → Nat) (f p t : Nat) : List LStore := if V f p = t then [.link f p (if V 8 t = t ∧ V 12 t = t then 0 else V 8 t)] else []
def removeX1 (V : Nat → Nat → Nat) (t : Nat) (x : UInt8) : List LStore := [.link 8 (V 12 t) (V 8 t), .link 12 (V 8 t) (V 12 t), .link 12 t t, .link 8 t t, .flag t x]

theorem removeX_spec {P : Pool} {els V fl} (h : Sees P els V fl) {p t : Nat} (hp : p ∈ els) (ht : t ∈ els) (htp : V 12 t ∈ els) (htn : V 8 t ∈ els)
    (hf : V (listField (fl t)) p ≠ 0) :
    P.removeStores p t = .ok ((removeX0 V (listField (fl t)) p t ++ removeX1 V t (fl t ||| 8)).map LStore.store) ∧
      P.stores ((removeX0 V (listField (fl t)) p t ++ removeX1 V t (fl t ||| 8)).map LStore.store) = P.remove p (some (t : Int)) ∧
      ∀ x ∈ removeX0 V (listField (fl t)) p t ++ removeX1 V t (fl t ||| 8), x.ok els := by
  have hok : ∀ x ∈ removeX0 V (listField (fl t)) p t ++ removeX1 V t (fl t ||| 8), x.ok els := by
    intro x hx
    rcases List.mem_append.1 hx with hx | hx
    · unfold removeX0 at hx
      split at hx
      · simp only [List.mem_cons, List.not_mem_nil, or_false] at hx
        subst hx
        refine ⟨hp, listField_ptr _, ?_⟩
        split
        · omega
        · exact (h.lt htn).2
      · simp at hx
    · simp only [removeX1, List.mem_cons, List.not_mem_nil, or_false] at hx
      rcases hx with rfl | rfl | rfl | rfl | rfl
      · exact ⟨htp, ptr8, (h.lt htn).2⟩
      · exact ⟨htn, ptr12, (h.lt htp).2⟩
      · exact ⟨ht, ptr12, (h.lt ht).2⟩
      · exact ⟨ht, ptr8, (h.lt ht).2⟩
      · exact ht
  refine ⟨?_, ?_, hok⟩
  · unfold Pool.removeStores
    rw [h.flags ht, Out.ok_bind, h.get hp (listField_ptr _) _ rfl, Out.ok_bind, if_neg (by omega), h.offset ht, Out.ok_bind, h.nx ht, Out.ok_bind, h.pv ht, Out.ok_bind, h.bwe hp, Out.ok_bind, h.bwe hp, Out.ok_bind]
    simp only [Out.pure_eq, Out.ok.injEq, List.map_append]
    congr 1
    unfold removeX0
    by_cases h0 : V (listField (fl t)) p = t
    · rw [if_pos (by omega), if_pos h0]
      by_cases h1 : V 8 t = t ∧ V 12 t = t
      · rw [if_pos h1, if_pos (by omega)]; rfl
      · rw [if_neg h1, if_neg (by omega)]; rfl
    · rw [if_neg (by omega), if_neg h0]; rfl
  · have hhead : ∃ Q, P.removeHead p (listField (fl t)) t t (V (listField (fl t)) p : Nat) = .ok Q ∧ P.stores ((removeX0 V (listField (fl t)) p t).map LStore.store) = .ok Q ∧
        Sees Q els (removeV1 V (listField (fl t)) p t) fl := by
      unfold Pool.removeHead removeV1 removeX0
      by_cases h0 : V (listField (fl t)) p = t
      · rw [if_pos (by omega), if_pos h0, if_pos h0]
        rw [h.nx ht, Out.ok_bind, h.pv ht, Out.ok_bind]
        have hv : (if V 8 t = t ∧ V 12 t = t then 0 else V 8 t) < 2147483648 := by
          split
          · omega
          · exact (h.lt htn).2
        obtain ⟨Q, q1, q2, -⟩ := h.set hp (listField_ptr (fl t)) hv _ _ rfl rfl
        refine ⟨Q, ?_, ?_, q2⟩
        · rw [← q1]
          congr 2
          by_cases h1 : V 8 t = t ∧ V 12 t = t
          · rw [if_pos h1, if_pos (by omega)]; rfl
          · rw [if_neg h1, if_neg (by omega)]
        · show (P.wr _ _ >>= fun Q => Q.stores []) = _
          rw [q1]; rfl
      · rw [if_neg (by omega), if_neg h0, if_neg h0]
        exact ⟨P, rfl, rfl, h⟩
    unfold Pool.remove
    simp only
    rw [h.flags ht, Out.ok_bind, h.get hp (listField_ptr _) _ rfl, Out.ok_bind, if_neg (by omega), h.offset ht, Out.ok_bind]
    obtain ⟨P1, e1, e1', s1⟩ := hhead
    have w8 : removeV1 V (listField (fl t)) p t 8 = V 8 := removeV1_link (listField_or (fl t)) (by omega)
    have w12 : removeV1 V (listField (fl t)) p t 12 = V 12 := removeV1_link (listField_or (fl t)) (by omega)
    rw [List.map_append, stores_append, e1', e1, Out.ok_bind, Out.ok_bind]
    show (P1.wr ((V 12 t : Int) + 8) (le32 (V 8 t)) >>= fun Q => Q.wr ((V 8 t : Int) + 12) (le32 (V 12 t)) >>= fun Q => Q.wr ((t : Int) + 12) (le32 t) >>= fun Q => Q.wr ((t : Int) + 8) (le32 t) >>= fun Q =>
      Q.wr ((t : Int) + 6) [fl t ||| 8] >>= fun Q => Q.stores []) = _
    rw [s1.pv ht, Out.ok_bind, s1.nx ht, Out.ok_bind, s1.bwe hp, Out.ok_bind, w8, w12]
    obtain ⟨P2, e2, s2, -⟩ := s1.set8 htp (h.lt htn).2
    have v8 : setV (removeV1 V (listField (fl t)) p t) 8 (V 12 t) (V 8 t) 8 t = V 8 t := by
      rw [setV_self, w8]; unfold upd; split <;> rfl
    have v12 : setV (removeV1 V (listField (fl t)) p t) 8 (V 12 t) (V 8 t) 12 t = V 12 t := by rw [setV_ne _ _ _ (by omega), w12]
    rw [e2, Out.ok_bind, Out.ok_bind, s2.nx ht, Out.ok_bind, s2.pv ht, Out.ok_bind, s2.bwe hp, Out.ok_bind, v8, v12]
    obtain ⟨P3, e3, s3, -⟩ := s2.set12 htn (h.lt htp).2
    rw [e3, Out.ok_bind, Out.ok_bind]
    obtain ⟨P4, e4, s4, -⟩ := s3.set12 ht (h.lt ht).2
    rw [e4, Out.ok_bind, Out.ok_bind]
    obtain ⟨P5, e5, s5, -⟩ := s4.set8 ht (h.lt ht).2
    rw [e5, Out.ok_bind, Out.ok_bind, s5.flags ht, Out.ok_bind]
    obtain ⟨P6, e6, -⟩ := s5.setFlags ht (fl t ||| 8) _ rfl
    rw [e6]; rfl

/-- the stores of `replace` -/
def replaceX0 (V : Nat → Nat → Nat) (t n : Nat) (x : UInt8) : List LStore :=
  [.link 8 n (V 8 t), .link 12 n (V 12 t), .link 12 (V 8 t) n, .link 8 (V 12 t) n, .flag t x, .link 12 t t, .link 8 t t]
def replaceX1 (V : Nat → Nat → Nat) (f p t n : Nat) : List LStore := if V f p = t then [.link f p n] else []

theorem replaceX_spec {P : Pool} {els V fl} (h : Sees P els V fl) {p t n : Nat} (hp : p ∈ els) (ht : t ∈ els) (hn : n ∈ els) (htn : t ≠ n) (htp : V 12 t ∈ els) (htx : V 8 t ∈ els)
    (hn8 : V 8 n = n) (hn12 : V 12 n = n) (hxn : V 8 t ≠ n) :
    P.replaceStores p t n = .ok ((replaceX0 V t n (fl t ||| 8) ++ replaceX1 V 16 p t n ++ replaceX1 V 20 p t n).map LStore.store) ∧
      P.stores ((replaceX0 V t n (fl t ||| 8) ++ replaceX1 V 16 p t n ++ replaceX1 V 20 p t n).map LStore.store) = P.replace p t n ∧
      ∀ x ∈ replaceX0 V t n (fl t ||| 8) ++ replaceX1 V 16 p t n ++ replaceX1 V 20 p t n, x.ok els := by
  have hok : ∀ f, f = 16 ∨ f = 20 → ∀ x ∈ replaceX1 V f p t n, x.ok els := by
    intro f hf x hx
    unfold replaceX1 at hx
    split at hx
    · simp only [List.mem_cons, List.not_mem_nil, or_false] at hx
      subst hx
      exact ⟨hp, by unfold IsPtr; omega, (h.lt hn).2⟩
    · simp at hx
  refine ⟨?_, ?_, ?_⟩
  · unfold Pool.replaceStores
    rw [h.offset hn, Out.ok_bind, h.nx ht, Out.ok_bind, h.pv ht, Out.ok_bind, h.offset ht, Out.ok_bind, h.flags ht, Out.ok_bind, h.bwe hp, Out.ok_bind, h.bwe hp, Out.ok_bind, h.child hp, Out.ok_bind]
    have ha : P.eAttr p = .ok (V 20 p : Nat) := h.get hp ptr20 _ rfl
    rw [ha, Out.ok_bind]
    simp only [Out.pure_eq, Out.ok.injEq, List.map_append]
    have key : ∀ f, (if ((V f p : Nat) : Int) = (t : Int) then [Store.word ((p : Int) + (f : Nat)) n] else []) = (replaceX1 V f p t n).map LStore.store := by
      intro f
      unfold replaceX1
      by_cases h0 : V f p = t
      · rw [if_pos (by omega), if_pos h0]; rfl
      · rw [if_neg (by omega), if_neg h0]; rfl
    rw [← key 16, ← key 20]
    rfl
  · unfold Pool.replace
    rw [List.map_append, List.map_append, stores_append, stores_append]
    have e0 : P.stores ((replaceX0 V t n (fl t ||| 8)).map LStore.store) = (P.wr ((n : Int) + 8) (le32 (V 8 t)) >>= fun Q => Q.wr ((n : Int) + 12) (le32 (V 12 t)) >>= fun Q => Q.wr ((V 8 t : Int) + 12) (le32 n) >>= fun Q =>
        Q.wr ((V 12 t : Int) + 8) (le32 n) >>= fun Q => Q.wr ((t : Int) + 6) [fl t ||| 8] >>= fun Q => Q.wr ((t : Int) + 12) (le32 t) >>= fun Q => Q.wr ((t : Int) + 8) (le32 t) >>= fun Q => Q.stores []) := rfl
    rw [e0, h.offset hn, Out.ok_bind, h.nx hn, Out.ok_bind, h.pv hn, Out.ok_bind, if_neg (by omega), h.nx ht, Out.ok_bind]
    obtain ⟨P1, e1, s1, -⟩ := h.set8 hn (h.lt htx).2
    rw [e1, Out.ok_bind, Out.ok_bind, s1.pv ht, Out.ok_bind]
    have v1 : (setV V 8 n (V 8 t)) 12 t = V 12 t := by rw [setV_ne _ _ _ (by omega)]
    rw [v1]
    obtain ⟨P2, e2, s2, -⟩ := s1.set12 hn (h.lt htp).2
    have v2 : (setV (setV V 8 n (V 8 t)) 12 n (V 12 t)) 8 n = V 8 t := by rw [setV_ne _ _ _ (by omega), setV_self, upd_self]
    rw [e2, Out.ok_bind, Out.ok_bind, s2.nx hn, Out.ok_bind, s2.bwe hp, Out.ok_bind, v2]
    obtain ⟨P3, e3, s3, -⟩ := s2.set12 htx (h.lt hn).2
    have v3 : (setV (setV (setV V 8 n (V 8 t)) 12 n (V 12 t)) 12 (V 8 t) n) 12 n = V 12 t := by
      rw [setV_self, upd_ne _ _ (Ne.symm hxn), setV_self, upd_self]
    rw [e3, Out.ok_bind, Out.ok_bind, s3.pv hn, Out.ok_bind, s3.bwe hp, Out.ok_bind, v3]
    obtain ⟨P4, e4, s4, -⟩ := s3.set8 htp (h.lt hn).2
    rw [e4, Out.ok_bind, Out.ok_bind, s4.flags ht, Out.ok_bind]
    obtain ⟨P5, e5, s5, -⟩ := s4.setFlags ht (fl t ||| 8) _ rfl
    rw [e5, Out.ok_bind, Out.ok_bind, s5.offset ht, Out.ok_bind]
    obtain ⟨P6, e6, s6, -⟩ := s5.set12 ht (h.lt ht).2
    rw [e6, Out.ok_bind, Out.ok_bind]
    obtain ⟨P7, e7, s7, -⟩ := s6.set8 ht (h.lt ht).2
    rw [e7, Out.ok_bind, Out.ok_bind]
    have key : ∀ {R : Pool} {V' fl'} f, f = 16 ∨ f = 20 → Sees R els V' fl' → V' f p = V f p → R.stores ((replaceX1 V f p t n).map LStore.store) = R.replaceHead p f t n ∧
        ∃ R' V'' , R.replaceHead p f t n = .ok R' ∧ Sees R' els V'' fl' ∧ ∀ j, j ≠ f → V'' j = V' j := by
      intro R V' fl' f hf hs hv
      have hf' : IsPtr f := by unfold IsPtr; omega
      unfold Pool.replaceHead replaceX1
      rw [hs.get hp hf' _ rfl, Out.ok_bind, hv]
      by_cases h0 : V f p = t
      · rw [if_pos h0, if_pos (by omega)]
        obtain ⟨Q, q1, q2, -⟩ := hs.set hp hf' (h.lt hn).2 _ _ rfl rfl
        refine ⟨?_, Q, _, q1, q2, fun j hj => setV_ne _ _ _ hj⟩
        show (R.wr _ _ >>= fun Q => Q.stores []) = _
        rw [q1]; rfl
      · rw [if_neg h0, if_neg (by omega)]
        exact ⟨rfl, R, _, rfl, hs, fun _ _ => rfl⟩
    have hj : ∀ k, k = 16 ∨ k = 20 → (setV (setV (setV (setV (setV (setV V 8 n (V 8 t)) 12 n (V 12 t)) 12 (V 8 t) n) 8 (V 12 t) n) 12 t t) 8 t t) k = V k := by
      intro k hk
      rw [setV_ne _ _ _ (by omega), setV_ne _ _ _ (by omega), setV_ne _ _ _ (by omega), setV_ne _ _ _ (by omega), setV_ne _ _ _ (by omega), setV_ne _ _ _ (by omega)]
    have s0 : P7.stores [] = .ok P7 := rfl
    obtain ⟨k1, P8, V8, e8, s8, d8⟩ := key 16 (Or.inl rfl) s7 (by rw [hj 16 (Or.inl rfl)])
    obtain ⟨k2, -⟩ := key 20 (Or.inr rfl) s8 (by rw [d8 20 (by omega), hj 20 (Or.inr rfl)])
    rw [s0, Out.ok_bind, k1, e8, Out.ok_bind, Out.ok_bind, k2]
  · intro x hx
    rcases List.mem_append.1 hx with hx | hx
    · rcases List.mem_append.1 hx with hx | hx
      · simp only [replaceX0, List.mem_cons, List.not_mem_nil, or_false] at hx
        rcases hx with rfl | rfl | rfl | rfl | rfl | rfl | rfl
        · exact ⟨hn, ptr8, (h.lt htx).2⟩
        · exact ⟨hn, ptr12, (h.lt htp).2⟩
        · exact ⟨htx, ptr12, (h.lt hn).2⟩
        · exact ⟨htp, ptr8, (h.lt hn).2⟩
        · exact ht
        · exact ⟨ht, ptr12, (h.lt ht).2⟩
        · exact ⟨ht, ptr8, (h.lt ht).2⟩
      · exact hok 16 (Or.inl rfl) x hx
    · exact hok 20 (Or.inr rfl) x hx

/-! ### killed in a call -/

/-- the lists of `F` are unchanged -/
def Calm (F : Forest) (els : List Nat) (V W : Nat → Nat → Nat) : Prop :=
  (∀ p ∈ els, ∀ k, k = 16 ∨ k = 20 → W k p = V k p) ∧ ∀ k p, ∀ x ∈ F.at' (lst k p), W 8 x = V 8 x

/-- the stores `xs` are those of the call -/
structure Does (P : Pool) (op : ListOp) (els : List Nat) (xs : List LStore) : Prop where
  eq : op.stores P = .ok (xs.map LStore.store)
  run : P.stores (xs.map LStore.store) = op.run P
  ok : ∀ x ∈ xs, x.ok els

theorem crash_op {E : Env} {P C : Pool} {D : Doc} {els V fl} (h : Keeps P D els V fl) (low : D.root < 2147483648) {G : Forest} {op : ListOp} (hs : Step D.forest op G) {xs : List LStore}
    (hd : Does P op els xs) (hk : P.KilledIn (xs.map LStore.store) C) {Ds : List Doc} (h1 : D ∈ Ds) (h2 : { D with forest := G } ∈ Ds)
    (hc : ∀ j, Calm D.forest els V (setVs V (xs.take j)) ∨ Calm G els (setVs V xs) (setVs V (xs.take j)) ∨ ∃ G', { D with forest := G' } ∈ Ds ∧ Ahead G' els (setVs V (xs.take j))) : OpensAs E C.file Ds := by
  obtain ⟨j, fl', -, s, o⟩ := killed_links h.sees hd.ok hk
  have hh := h.only o
  rcases hc j with ⟨c1, c2⟩ | ⟨c1, c2⟩ | ⟨G', c1, c2⟩
  · exact hh.opensAs s low (h.lists.ahead c1 c2) h1
  · obtain ⟨Q, V', flQ, q1, q2, -, q4⟩ := step_spec h.sees h.lists hs
    obtain ⟨Q', flQ', r1, r2, -⟩ := run_links xs h.sees hd.ok
    rw [hd.run, q1] at r1
    cases r1
    refine hh.opensAs s low (q4.ahead (fun p hp k hk => ?_) fun k p x hx => ?_) h2
    · rw [c1 p hp k hk]
      exact r2.agree q2 hp (by unfold IsPtr; omega)
    · rw [c2 k p x hx]
      exact r2.agree q2 ((q4.mem x).1 ⟨_, hx⟩) ptr8
  · exact hh.opensAs s low c2 c1

end BX
