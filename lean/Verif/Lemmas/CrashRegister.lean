import Verif.Model.CrashRegister
import Verif.Lemmas.CrashClear
import Verif.Lemmas.CrashStores
import Verif.Lemmas.Edit
/-
The stores of registering a symbol.
-/
namespace BX
open XBT Spec

theorem setSyms_id (D : Doc) (b : Bool) : D.setSyms b (D.syms b) (D.ready b) = D := by
  have e1 : (fun c => if c = b then D.syms b else D.syms c) = D.syms := by funext c; split <;> simp_all
  have e2 : (fun c => if c = b then D.ready b else D.ready c) = D.ready := by funext c; split <;> simp_all
  unfold Doc.setSyms
  rw [e1, e2]

/-- the stores of an allocation -/
theorem alloc_part {P : Pool} (hP : PoolOk P) {size : Nat} (hr : P.alloc + aa size ≤ P.limit) :
    P.stores (P.allocStores NULL size).1 = .ok { P with mem := memPut P.mem P.alloc (List.replicate (aa size) 0), alloc := P.alloc + aa size } ∧ (P.allocStores NULL size).2 = P.alloc ∧
      ∀ s ∈ (P.allocStores NULL size).1, InFree P s := by
  have hx : xalign NULL ≠ 8 := by decide
  refine ⟨?_, ?_, (allocStores_fresh hP (t := NULL) (size := size) (by unfold Pool.Room; rw [if_neg hx]; exact hr)).1⟩
  · unfold Pool.allocStores
    rw [if_neg hx]
    show (Pool.wr { P with alloc := P.alloc + aa size } (P.alloc : Nat) (List.replicate (aa size) 0) >>= fun S => S.stores []) = _
    rw [Pool.wr_eq (a := P.alloc) (by simp only [List.length_replicate]; have := hP.lim; omega) _ rfl]
    rfl
  · unfold Pool.allocStores; rw [if_neg hx]

/-- what `Open` does, store by store -/
theorem open_part {P : Pool} {D : Doc} {els V fl} (k : Keeps P D els V fl) {b : Bool} (hl : D.syms b ≠ []) (hroom : P.alloc + symsLen (D.syms b) ≤ P.limit) :
    ∃ A os, P.open' b = .ok (A, true) ∧ P.openStores b = .ok os ∧ P.stores os = .ok A ∧ A.limit = P.limit ∧ A.alloc ≤ P.alloc + symsLen (D.syms b) ∧ (A.tab b).index = 0 ∧ (A.tab b).names ≠ 0 ∧
      (A.tab b).names + symsLen (D.syms b) = A.alloc ∧ Keeps A (D.setSyms b (D.syms b) false) els V fl ∧ ∀ C, P.KilledIn os C → ∃ r, Keeps C (D.setSyms b (D.syms b) r) els V fl := by
  have hP := k.sees.ok
  have ht := k.tabs b
  have hn := ht.some hl
  obtain ⟨n1, n2, n3, n4⟩ := ht.names hn
  have k0 : Keeps P (D.setSyms b (D.syms b) (D.ready b)) els V fl := by rw [setSyms_id]; exact k
  have hlim := hP.lim; have hal := hP.le
  have hmod := symsLen_mod (D.syms b)
  have haa : aa (symsLen (D.syms b)) = symsLen (D.syms b) := aa_of_mod hmod.1
  have hpos := List.length_pos_iff.2 hl
  unfold Pool.open' Pool.openStores
  rw [namesSize_ok hP ht, Out.ok_bind]
  simp only [setTab_self, Out.ok_bind]
  by_cases hc : (P.tab b).index = 0 ∧ (P.tab b).names + symsLen (D.syms b) = P.alloc
  · rw [if_pos hc, if_pos hc]
    refine ⟨P, [], rfl, rfl, rfl, rfl, by omega, hc.1, hn, hc.2, ?_, ?_⟩
    · refine k.tab (Q := P) ⟨hP, Nat.le_refl _, rfl, rfl, rfl, fun _ _ => rfl, fun _ _ _ => rfl, ht, fun _ => Or.inl, fun _ => id⟩ (by simp)
    · rintro C ⟨done, rest, he, h⟩
      obtain ⟨rfl, rfl⟩ := List.append_eq_nil_iff.1 he.symm
      rcases h with h | ⟨a, bs, r, Q, m, e, -⟩
      · cases h; exact ⟨_, k0⟩
      · cases e
  · rw [if_neg hc, if_neg hc, allocRoom_eq hP k.sees.small (size := symsLen (D.syms b)) (by omega) (by omega) _ rfl, Out.ok_bind]
    obtain ⟨a1, a2, a3⟩ := alloc_part hP (size := symsLen (D.syms b)) (by omega)
    rw [rd_eq (f := P.img) n4 (encSyms_length _ _) (by show _ ≤ P.fileSize; omega), Out.ok_bind, a2]
    simp only
    have hPP : P.alloc + symsLen (D.syms b) ≤ P.fileSize := by omega
    have hcp : Pool.copy { P with mem := memPut P.mem P.alloc (List.replicate (aa (symsLen (D.syms b))) 0), alloc := P.alloc + aa (symsLen (D.syms b)) } P.alloc (P.tab b).names (symsLen (D.syms b)) =
        .ok { P with mem := memPut (memPut P.mem P.alloc (List.replicate (aa (symsLen (D.syms b))) 0)) P.alloc (encSyms 0 (D.syms b)), alloc := P.alloc + aa (symsLen (D.syms b)) } := by
      unfold Pool.copy
      rw [rd_eq (f := Pool.img { P with mem := memPut P.mem P.alloc (List.replicate (aa (symsLen (D.syms b))) 0), alloc := P.alloc + aa (symsLen (D.syms b)) }) (bs := encSyms 0 (D.syms b))
        (n4.frame (Or.inl (by rw [encSyms_length]; omega))) (encSyms_length _ _) (by show _ ≤ P.fileSize; omega), Out.ok_bind, Pool.wr_eq (a := P.alloc) (by rw [encSyms_length]; exact hPP) _ rfl]
    rw [hcp, Out.ok_bind]
    have hfree : ∀ s ∈ (P.allocStores NULL (symsLen (D.syms b))).1 ++ [Store.bytes (P.alloc : Nat) (encSyms 0 (D.syms b))], InFree P s := by
      intro s hs
      rcases List.mem_append.1 hs with hs | hs
      · exact a3 s hs
      · simp only [List.mem_cons, List.not_mem_nil, or_false] at hs
        subst hs
        exact Int.le_refl _
    generalize hz : memPut (memPut P.mem P.alloc (List.replicate (aa (symsLen (D.syms b))) 0)) P.alloc (encSyms 0 (D.syms b)) = z
    have hzk : ∀ i, i < P.alloc → z i = P.mem i := by
      intro i hi
      rw [← hz, memPut_frame _ _ _ _ (Or.inl hi), memPut_frame _ _ _ _ (Or.inl hi)]
    have hzh : Has z P.alloc (encSyms 0 (D.syms b)) := by rw [← hz]; exact Has.self _ _ _
    have hst : P.stores ((P.allocStores NULL (symsLen (D.syms b))).1 ++ [Store.bytes (P.alloc : Nat) (encSyms 0 (D.syms b))]) = .ok { P with mem := z, alloc := P.alloc + aa (symsLen (D.syms b)) } := by
      rw [stores_append, a1, Out.ok_bind]
      show (Pool.wr _ (P.alloc : Nat) _ >>= fun S => S.stores []) = _
      rw [Pool.wr_eq (a := P.alloc) (by rw [encSyms_length]; exact hPP) _ rfl]
      show Out.ok _ = _
      rw [← hz]
    have hgot : Got P { P with mem := z, alloc := P.alloc + aa (symsLen (D.syms b)) } := (Got.stores hP _ (Got.refl hP) rfl hfree hst).1
    generalize hZ : ({ P with mem := z, alloc := P.alloc + aa (symsLen (D.syms b)) } : Pool) = Z at *
    have hZt : ∀ c, Z.tab c = P.tab c := fun c => by rw [← hZ]; rfl
    have hZm : Z.mem = z := by rw [← hZ]
    have hZa : Z.alloc = P.alloc + symsLen (D.syms b) := by rw [← hZ]; show _ + aa _ = _; rw [haa]
    have hZl : Z.limit = P.limit := by rw [← hZ]
    have hZf : Z.fileSize = P.fileSize := by rw [← hZ]
    have t1 : TabOk (Z.setTab b { P.tab b with index := 0 }) { P.tab b with index := 0 } (D.syms b) := by
      refine ht.moved n1 n2 (by rw [setTab_alloc]; omega) ?_
      rw [setTab_mem, hZm]
      exact n4.congr fun i _ i2 => hzk i (by rw [encSyms_length] at i2; omega)
    have t2 : TabOk (Z.setTab b { P.tab b with index := 0, names := P.alloc }) { P.tab b with index := 0, names := P.alloc } (D.syms b) := by
      refine ht.moved (by omega) hP.al (by rw [setTab_alloc]; omega) ?_
      rw [setTab_mem, hZm]
      exact hzh
    have step : ∀ T, TabOk (Z.setTab b T) T (D.syms b) → T.index = 0 → (T.names = (P.tab b).names ∨ T.names = P.alloc) → RegStep P (Z.setTab b T) b (D.syms b) (D.syms b) := by
      intro T hT h0 hnn
      refine ⟨hgot.ok.setTab _ _, by rw [setTab_alloc]; exact hgot.mono, by rw [setTab_fileSize]; exact hZf, by rw [setTab_mmapSize]; exact hgot.map, by rw [setTab_root]; exact hgot.same.1,
        fun c hc => by rw [setTab_other _ _ hc]; exact hZt c, fun i hi _ => by rw [setTab_mem]; exact hgot.keep i hi, by rw [setTab_tab]; exact hT, ?_, ?_⟩
      · rw [setTab_tab]
        rintro i ⟨i1, i2, i3⟩
        rcases hnn with e | e
        · left; exact ⟨hn, by omega, by omega⟩
        · right; omega
      · rw [setTab_tab]
        rintro i ⟨i1, -⟩
        exact absurd h0 i1
    have k1 := k.tab (r := false) (step _ t1 rfl (Or.inl rfl)) (by simp)
    have k2 := k.tab (r := false) (step _ t2 rfl (Or.inr rfl)) (by simp)
    refine ⟨Z.setTab b { P.tab b with index := 0, names := P.alloc }, _, rfl, rfl, ?_, by rw [setTab_limit]; exact hZl, by rw [setTab_alloc]; omega, by rw [setTab_tab], by rw [setTab_tab]; have := hP.head; have : poolHeader = 92 := rfl; simp only; omega,
      by rw [setTab_tab, setTab_alloc]; simp only; omega, k2, ?_⟩
    · rw [show ∀ (x y z' : Store) (xs : List Store), xs ++ [x, y, z'] = (xs ++ [x]) ++ [y, z'] by simp, stores_append, hst, Out.ok_bind]
      show Out.ok _ = _
      congr 1
      cases b <;> rfl
    · intro C hk
      rw [show ∀ (x y z' : Store) (xs : List Store), xs ++ [x, y, z'] = (xs ++ [x]) ++ [y, z'] by simp] at hk
      rcases killed_append hk with hk | ⟨Q, q1, hk⟩
      · exact ⟨_, k0.got (killed_got hP hfree hk)⟩
      rw [hst] at q1
      cases q1
      rcases killed_cons (by simp) rfl hk with hC | hk
      · exact ⟨_, by rw [hC]; exact k0.got hgot⟩
      rcases killed_cons (by simp) rfl hk with hC | hk
      · exact ⟨_, by rw [hC]; exact k1⟩
      · obtain ⟨done, rest, he, h⟩ := hk
        obtain ⟨rfl, rfl⟩ := List.append_eq_nil_iff.1 he.symm
        rcases h with h | ⟨a, bs, r, Q, m, e, -⟩
        · cases h
          refine ⟨false, (show Pool.setTab (Pool.setTab Z b _) b _ = _ from ?_) ▸ k2⟩
          cases b <;> rfl
        · cases e

/-- killed while bytes are stored one behind the other -/
theorem killed_bytes {C : Pool} : ∀ (bs : List UInt8) (Q : Pool) (a : Nat), a + bs.length ≤ Q.fileSize → Q.KilledIn (byteStores a bs) C → ∃ j, j ≤ bs.length ∧ C = { Q with mem := memPut Q.mem a (bs.take j) }
  | [], Q, a, h, hk => by
    obtain ⟨done, rest, he, h⟩ := hk
    obtain ⟨rfl, rfl⟩ := List.append_eq_nil_iff.1 he.symm
    rcases h with h | ⟨a, bs, r, Q, m, e, -⟩
    · cases h
      refine ⟨0, Nat.le_refl _, ?_⟩
      rw [List.take_nil, show memPut C.mem a [] = C.mem by funext i; exact memPut_frame _ _ _ _ (by simp only [List.length_nil]; omega)]
    · cases e
  | c :: bs, Q, a, h, hk => by
    simp only [List.length_cons] at h
    have h1 : Q.store1 (.byte a c) = .ok { Q with mem := memPut Q.mem a [c] } := Pool.wr_eq (by simp only [List.length_cons, List.length_nil]; omega) _ rfl
    rcases killed_cons (by simp) h1 hk with rfl | hk
    · refine ⟨0, by omega, ?_⟩
      rw [List.take_zero, show memPut C.mem a [] = C.mem by funext i; exact memPut_frame _ _ _ _ (by simp only [List.length_nil]; omega)] 
    · obtain ⟨j, j1, j2⟩ := killed_bytes bs _ (a + 1) (by show _ ≤ Q.fileSize; omega) hk
      refine ⟨j + 1, by simp only [List.length_cons]; omega, ?_⟩
      rw [j2, List.take_succ_cons, show c :: bs.take j = [c] ++ bs.take j from rfl, memPut_app]
      rfl

theorem byteStores_ok : ∀ (bs : List UInt8) (Q : Pool) (a : Nat), a + bs.length ≤ Q.fileSize → Q.stores (byteStores a bs) = .ok { Q with mem := memPut Q.mem a bs }
  | [], Q, a, h => by
    rw [show memPut Q.mem a [] = Q.mem by funext i; exact memPut_frame _ _ _ _ (by simp only [List.length_nil]; omega)]
    rfl
  | c :: bs, Q, a, h => by
    simp only [List.length_cons] at h
    show (Q.wr (a : Nat) [c] >>= fun S => S.stores (byteStores (a + 1) bs)) = _
    rw [Pool.wr_eq (a := a) (by simp only [List.length_cons, List.length_nil]; omega) _ rfl, Out.ok_bind, byteStores_ok bs _ (a + 1) (by show _ ≤ Q.fileSize; omega), show c :: bs = [c] ++ bs from rfl, memPut_app]
    rfl

/-- every part of the bytes may be found stored -/
theorem bytes_killed (bs : List UInt8) (Q : Pool) (a : Nat) (h : a + bs.length ≤ Q.fileSize) (j : Nat) (hj : j ≤ bs.length) : Q.KilledIn (byteStores a bs) { Q with mem := memPut Q.mem a (bs.take j) } := by
  have e : ∀ (bs : List UInt8) (a j : Nat), byteStores a bs = byteStores a (bs.take j) ++ byteStores (a + (bs.take j).length) (bs.drop j) := by
    intro bs
    induction bs with
    | nil => intro a j; simp [byteStores]
    | cons c bs ih =>
      intro a j
      cases j with
      | zero => simp [byteStores]
      | succ j =>
        simp only [List.take_succ_cons, List.drop_succ_cons, byteStores, List.cons_append, List.length_cons]
        rw [ih (a + 1) j, show a + 1 + (bs.take j).length = a + ((bs.take j).length + 1) by omega]
  exact ⟨_, _, e bs a j, Or.inl (byteStores_ok _ _ _ (by rw [List.length_take]; omega))⟩

/-- the pool with memory for a new record -/
def Pool.roomed (A : Pool) (n : Nat) : Pool := { A with mem := memPut A.mem A.alloc (List.replicate (aa n) 0), alloc := A.alloc + aa n }
/-- and one more symbol in a table -/
def Pool.counted (A : Pool) (b : Bool) (n : Nat) : Pool := (A.roomed n).setTab b { A.tab b with maxId := (A.tab b).maxId + 1 }
/-- and the first bytes of the record -/
def Pool.begun (A : Pool) (b : Bool) (n : Nat) (bs : List UInt8) : Pool := { A.counted b n with mem := memPut (A.counted b n).mem A.alloc bs }

theorem counted_mem (A : Pool) (b : Bool) (n : Nat) : (A.counted b n).mem = memPut A.mem A.alloc (List.replicate (aa n) 0) := by unfold Pool.counted; rw [setTab_mem]; rfl
theorem counted_file (A : Pool) (b : Bool) (n : Nat) : (A.counted b n).fileSize = A.fileSize := by unfold Pool.counted; rw [setTab_fileSize]; rfl
theorem begun_app (A : Pool) (b : Bool) (n : Nat) (x y : List UInt8) (a : Nat) (ha : a = A.alloc + x.length) : { A.begun b n x with mem := memPut (A.begun b n x).mem a y } = A.begun b n (x ++ y) := by
  subst ha
  unfold Pool.begun
  rw [memPut_app]

/-- what a new record does, store by store -/
theorem record_part {A : Pool} (hA : PoolOk A) (b : Bool) (name : BStr) (t : XBT) (hr : A.alloc + aa (name.length + 4) ≤ A.limit) :
    A.stores (A.recordStores b name t) = .ok (A.begun b (name.length + 4) (symRecord ((A.tab b).maxId + 1) t name)) ∧
    (∀ C, A.KilledIn (A.recordStores b name t) C → Got A C ∨ C = A.counted b (name.length + 4) ∨
      ∃ j t', j ≤ name.length ∧ (t' = t ∨ j = 0 ∧ t' = NULL) ∧ C = A.begun b (name.length + 4) (leN 2 (toU 16 ((A.tab b).maxId + 1)) ++ [t'.code] ++ name.take j)) ∧
    ∀ j, j ≤ name.length → A.KilledIn (A.recordStores b name t) (A.begun b (name.length + 4) (leN 2 (toU 16 ((A.tab b).maxId + 1)) ++ [t.code] ++ name.take j)) := by
  obtain ⟨a1, a2, a3⟩ := alloc_part hA (size := name.length + 4) hr
  have hge := aa_ge (name.length + 4)
  have hlim := hA.lim
  have hfs := counted_file A b (name.length + 4)
  have hL : (leN 2 (toU 16 ((A.tab b).maxId + 1))).length = 2 := leN_length _ _
  have h0 : ∀ i, A.alloc ≤ i → i < A.alloc + (name.length + 4) → (A.counted b (name.length + 4)).mem i = 0 := fun i i1 i2 => by
    rw [counted_mem]; exact memPut_zeros i1 (by omega)
  unfold Pool.recordStores
  simp only
  rw [show 3 + name.length + 1 = name.length + 4 by omega, a2]
  generalize hM : leN 2 (toU 16 ((A.tab b).maxId + 1)) = L at *
  have e1 : Pool.store1 (A.roomed (name.length + 4)) (.tab b { A.tab b with maxId := (A.tab b).maxId + 1 }) = .ok (A.counted b (name.length + 4)) := rfl
  have e2 : Pool.store1 (A.counted b (name.length + 4)) (.half (A.alloc : Nat) ((A.tab b).maxId + 1)) = .ok (A.begun b (name.length + 4) L) := by
    show Pool.wr _ _ (leN 2 _) = _
    rw [hM, Pool.wr_eq (a := A.alloc) (by omega) _ rfl]; rfl
  have e3 : Pool.store1 (A.begun b (name.length + 4) L) (.byte (A.alloc + 2 : Nat) t.code) = .ok (A.begun b (name.length + 4) (L ++ [t.code])) := by
    show Pool.wr _ _ _ = _
    rw [Pool.wr_eq (a := A.alloc + 2) (by show _ ≤ (A.counted b (name.length + 4)).fileSize; simp only [List.length_cons, List.length_nil]; omega) _ rfl, begun_app _ _ _ _ _ _ (by omega)]
  have hfit : A.alloc + 3 + (name ++ [0]).length ≤ (A.begun b (name.length + 4) (L ++ [t.code])).fileSize := by
    show _ ≤ (A.counted b (name.length + 4)).fileSize
    simp only [List.length_append, List.length_cons, List.length_nil]; omega
  have hlen3 : A.alloc + 3 = A.alloc + (L ++ [t.code]).length := by simp only [List.length_append, List.length_cons, List.length_nil]; omega
  have e4 := byteStores_ok (name ++ [0]) _ (A.alloc + 3) hfit
  rw [begun_app _ _ _ _ _ _ hlen3] at e4
  have hmid : A.stores ((A.allocStores NULL (name.length + 4)).1 ++ [.tab b { A.tab b with maxId := (A.tab b).maxId + 1 }, .half (A.alloc : Nat) ((A.tab b).maxId + 1), .byte (A.alloc + 2 : Nat) t.code]) =
      .ok (A.begun b (name.length + 4) (L ++ [t.code])) := by
    rw [stores_append, a1, Out.ok_bind]
    show (Pool.store1 (A.roomed (name.length + 4)) _ >>= fun S => S.stores _) = _
    rw [e1, Out.ok_bind]
    show (Pool.store1 _ _ >>= fun S => S.stores _) = _
    rw [e2, Out.ok_bind]
    show (Pool.store1 _ _ >>= fun S => S.stores _) = _
    rw [e3]
    rfl
  refine ⟨?_, ?_, ?_⟩
  · rw [← List.append_assoc, stores_append, hmid, Out.ok_bind, e4]
    unfold symRecord
    rw [hM, List.append_assoc (L ++ [t.code])]
  · intro C hk
    rcases killed_append hk with hk | ⟨R, r1, hk⟩
    · exact Or.inl (killed_got hA a3 hk)
    rw [a1] at r1
    cases r1
    rw [List.cons_append, List.cons_append, List.cons_append, List.nil_append] at hk
    rcases killed_cons (by simp) e1 hk with hC | hk
    · exact Or.inl (Got.stores hA _ (Got.refl hA) rfl a3 (a1.trans (congrArg Out.ok hC.symm))).1
    right
    rcases killed_cons (by simp) e2 hk with hC | hk
    · exact Or.inl hC
    right
    rcases killed_cons (by simp) e3 hk with hC | hk
    · refine ⟨0, NULL, Nat.zero_le _, Or.inr ⟨rfl, rfl⟩, ?_⟩
      rw [hC, List.take_zero, List.append_nil]
      unfold Pool.begun
      rw [show [XBT.code NULL] = List.replicate 1 0 from rfl, memPut_pad fun i i1 i2 => h0 i (by omega) (by omega)]
    obtain ⟨j, j1, hC⟩ := killed_bytes _ _ _ hfit hk
    rw [begun_app _ _ _ _ _ _ hlen3] at hC
    simp only [List.length_append, List.length_cons, List.length_nil] at j1
    by_cases hj : j ≤ name.length
    · refine ⟨j, t, hj, Or.inl rfl, ?_⟩
      rw [hC, List.take_append_of_le_length hj]
    · refine ⟨name.length, t, Nat.le_refl _, Or.inl rfl, ?_⟩
      rw [hC, List.take_of_length_le (by simp only [List.length_append, List.length_cons, List.length_nil]; omega), List.take_length, ← List.append_assoc]
      unfold Pool.begun
      rw [show [(0 : UInt8)] = List.replicate 1 0 from rfl, memPut_pad fun i i1 i2 => h0 i ?_ ?_]
      · omega
      · simp only [List.length_append, List.length_cons, List.length_nil] at i2; omega
  · intro j hj
    have hb := bytes_killed (name ++ [0]) _ (A.alloc + 3) hfit j (by simp only [List.length_append, List.length_cons, List.length_nil]; omega)
    rw [begun_app _ _ _ _ _ _ hlen3, List.take_append_of_le_length hj] at hb
    rw [← List.append_assoc]
    obtain ⟨done, rest, d1, d2⟩ := hb
    rw [d1, ← List.append_assoc]
    refine ⟨_, rest, rfl, ?_⟩
    rcases d2 with d2 | ⟨a, bs, rest', Q, m, e, d2, d3⟩
    · left; rw [stores_append, hmid, Out.ok_bind]; exact d2
    · right; exact ⟨a, bs, rest', Q, m, e, by rw [stores_append, hmid, Out.ok_bind]; exact d2, d3⟩

end BX
