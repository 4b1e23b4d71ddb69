import Verif.Spec.CrashRegister
import Verif.Lemmas.CrashNamed
import Verif.Lemmas.RegisterId
import Verif.Props.Crash
/-
C69: the process is killed while it registers a symbol.
-/
namespace BX
open XBT Spec

theorem Keeps.recovers {E : Env} {C : Pool} {D : Doc} {els V fl} (k : Keeps C D els V fl) (low : D.root < 2147483648) : RecoversAs E C.file D := by
  have k0 : Keeps C { D with ready := fun _ => false } els V fl := k.ready (by simp)
  refine ⟨k0.holds.opensAs k0.sees low (k0.lists.ahead (fun _ _ _ _ => rfl) fun _ _ _ _ => rfl) (by simp), fun n g hg R hR => ?_⟩
  obtain ⟨o1, o2⟩ := k.opened low E n
  rw [hg] at o1
  cases o1
  have ka := o2.all hR
  have e : (fun b => D.ready b || true) = fun _ => true := by funext b; simp
  simp only [e] at ka
  exact ⟨ka.holds.shows ka.sees (ka.lists.ahead (fun _ _ _ _ => rfl) fun _ _ _ _ => rfl), fun b => by have := (ka.tabs b).max; simp only at this; omega⟩

theorem RecoversAs.any {E : Env} {f : Img} {D : Doc} {b : Bool} {r : Bool} (h : RecoversAs E f (D.setSyms b (D.syms b) r)) : RecoversAs E f D := by
  have e : (D.setSyms b (D.syms b) r).syms = D.syms := by
    show (fun c => if c = b then D.syms b else D.syms c) = _
    funext c; split <;> simp_all
  unfold RecoversAs at *
  have e1 : ∀ q, ({ D.setSyms b (D.syms b) r with ready := q } : Doc) = { D with ready := q } := by
    intro q
    unfold Doc.setSyms at e ⊢
    simp only at e ⊢
    rw [e]
  rw [e1, e1, e] at h
  exact h

theorem withSym_any (D : Doc) (b : Bool) (r : Bool) (p : BStr) (t : XBT) : (D.setSyms b (D.syms b) r).withSym b p t = D.withSym b p t := by
  unfold Doc.withSym Doc.setSyms
  simp only
  congr 1
  · funext c; split <;> simp_all
  · funext c; split <;> simp_all

/-- what registering a new name does, store by store -/
theorem symbol_stores {P : Pool} {D : Doc} {els V fl} (k : Keeps P D els V fl) {b : Bool} (hl : D.syms b ≠ []) (hfew : (D.syms b).length < 128) {name : BStr} {t : XBT} (hg : GoodName name)
    (hnew : ¬ Known (D.syms b) name) (ht : b = false → t ≠ LAST ∧ P.tags.names ≠ 0) (hroom : P.alloc + symsLen (D.syms b) + aa (name.length + 4) ≤ P.limit) :
    ∃ A os, P.openStores b = .ok os ∧ P.stores os = .ok A ∧ P.symbolStores b name t = .ok (os ++ A.recordStores b name t) ∧ A.alloc + aa (name.length + 4) ≤ A.limit ∧ (A.tab b).index = 0 ∧ (A.tab b).names ≠ 0 ∧
      (A.tab b).names + symsLen (D.syms b) = A.alloc ∧ Keeps A (D.setSyms b (D.syms b) false) els V fl ∧ (∀ C, P.KilledIn os C → ∃ r, Keeps C (D.setSyms b (D.syms b) r) els V fl) ∧
      ∃ Q, P.register b name t = .ok (Q, (D.syms b).length) ∧ P.stores (os ++ A.recordStores b name t) = .ok Q := by
  obtain ⟨A, os, a1, a2, a3, a4, a5, a6, a7, a8, a9, a10⟩ := open_part k hl (by omega)
  have hA := a9.sees.ok
  have hr : A.alloc + aa (name.length + 4) ≤ A.limit := by omega
  obtain ⟨r1, -, -⟩ := record_part hA b name t hr
  have hmax : (A.tab b).maxId + 1 = (D.syms b).length := by
    have := (a9.tabs b).max
    rw [(setSyms_self D b _ _).1] at this
    rw [this]; omega
  refine ⟨A, os, a2, a3, ?_, hr, a6, a7, a8, a9, a10, A.begun b (name.length + 4) (symRecord ((A.tab b).maxId + 1) t name), ?_, ?_⟩
  · unfold Pool.symbolStores
    rw [a2, Out.ok_bind, a3]
    rfl
  · have hn : ∀ s ∈ D.syms b, s.name ≠ name := fun s hs h => hnew ⟨s, hs, h⟩
    rw [register_new_eq k.sees.ok k.sees.small (k.tabs b) hl hg hn, if_neg (fun hc => by rcases hc.2 with h | h; exact (ht hc.1).1 h; exact (ht hc.1).2 h)]
    unfold Pool.addSymbol
    rw [a1, Out.ok_bind, if_neg (by simp), allocRoom_eq hA a9.sees.small (size := name.length + 4) (by omega) hr _ (by omega), Out.ok_bind]
    simp only
    have htab : Pool.tab { A with mem := memPut A.mem A.alloc (List.replicate (aa (name.length + 4)) 0), alloc := A.alloc + aa (name.length + 4) } b = A.tab b := by cases b <;> rfl
    have hge := aa_ge (name.length + 4)
    have hlim := hA.lim
    rw [htab, Pool.wr_eq (a := A.alloc) (by rw [symRecord_length, setTab_fileSize]; show _ ≤ A.fileSize; omega) _ rfl, Out.ok_bind, ← hmax]
    rfl
  · rw [stores_append, a3, Out.ok_bind, r1]

/-- the stores of registering a new name in a table that has symbols, where there is room, are what the call does -/
theorem C69_symbol_stores {E : Env} {maxSize : Nat} (h1 : 0x4000 ≤ maxSize) (h2 : maxSize < 2147483648) {P Q : Pool} {D : Doc} (h : Sess E maxSize P D) {b : Bool} (hl : D.syms b ≠ [])
    (hfew : (D.syms b).length < 128) {name : BStr} {t : XBT} (hne : name ≠ []) (hnn : ∀ x ∈ name, x ≠ 0) (hnew : ¬ Known (D.syms b) name) (ht : b = false → t ≠ LAST ∧ D.syms true ≠ [])
    (hroom : P.alloc + symsLen (D.syms b) + aa (name.length + 4) ≤ P.limit) :
    P.register b name t = .ok (Q, (D.syms b).length) ↔ ∃ ss, P.symbolStores b name t = .ok ss ∧ P.stores ss = .ok Q := by
  obtain ⟨⟨els, V, fl, k⟩, -⟩ := sess_both h1 h2 h
  obtain ⟨A, os, -, -, s1, -, -, -, -, -, -, R, s2, s3⟩ := symbol_stores k hl hfew (t := t) ⟨hne, hnn⟩ hnew (fun hb => ⟨(ht hb).1, (k.tabs true).some (ht hb).2⟩) hroom
  rw [s1, s2]
  constructor
  · intro e; cases e; exact ⟨_, rfl, s3⟩
  · rintro ⟨ss, e1, e2⟩
    cases e1
    rw [s3] at e2; cases e2; rfl

/-- a process killed in such a registration, at any point: the file opens with all elements, and once `allRegistered` has succeeded, there are the symbols before the call, and perhaps one more, whose name is
a part of the new name (all of it, if the call was nearly done) -/
theorem C69_symbol_partial {E : Env} {maxSize : Nat} (h1 : 0x4000 ≤ maxSize) (h2 : maxSize < 2147483648) {P : Pool} {D : Doc} (h : Sess E maxSize P D) {b : Bool} (hl : D.syms b ≠ [])
    (hfew : (D.syms b).length < 128) {name : BStr} {t : XBT} (hne : name ≠ []) (hnn : ∀ x ∈ name, x ≠ 0) (hnew : ¬ Known (D.syms b) name) (ht : b = false → t ≠ LAST ∧ D.syms true ≠ [])
    (hroom : P.alloc + symsLen (D.syms b) + aa (name.length + 4) ≤ P.limit) {ss : List Store} (hs : P.symbolStores b name t = .ok ss) {C : Pool} (hC : P.KilledIn ss C) :
    RecoversAs E C.file D ∨ ∃ j ≤ name.length, ∃ t', (t' = t ∨ j = 0 ∧ t' = NULL) ∧ RecoversAs E C.file (D.withSym b (name.take j) t') := by
  obtain ⟨⟨els, V, fl, k⟩, low⟩ := sess_both h1 h2 h
  obtain ⟨A, os, s0, s3, s1, s4, s5, s6, s7, s8, s9, -⟩ := symbol_stores k hl hfew (t := t) ⟨hne, hnn⟩ hnew (fun hb => ⟨(ht hb).1, (k.tabs true).some (ht hb).2⟩) hroom
  rw [hs] at s1
  cases s1
  rcases killed_append hC with hC | ⟨R, r1, hC⟩
  · obtain ⟨r, kr⟩ := s9 C hC
    exact Or.inl (RecoversAs.any (kr.recovers low))
  rw [s3] at r1
  cases r1
  obtain ⟨-, r2, -⟩ := record_part s8.sees.ok b name t s4
  have e := (setSyms_self D b (D.syms b) false).1
  rcases r2 C hC with g | rfl | ⟨j, t', hj, ht', rfl⟩
  · exact Or.inl (RecoversAs.any ((s8.got g).recovers low))
  · exact Or.inl (RecoversAs.any (rest_recovers s8 low (by rw [e]; exact hl) s5 (by rw [e]; exact s7) (by rw [e]; exact hfew) (by omega) s4))
  · refine Or.inr ⟨j, hj, t', ht', ?_⟩
    have := begun_recovers (E := E) s8 low (p := name.take j) (t := t') s6 s5 (by rw [e]; exact s7) (by rw [e]; exact hfew) s4 (fun x hx => hnn x (List.mem_of_mem_take hx))
      (by rw [List.length_take]; omega)
    rw [withSym_any] at this
    exact this

/-- every part of a name may be found after a crash, even the empty one: the file opens, and the document has a symbol of this wrong name, and none of the right one -/
theorem C69_symbol_false {E : Env} {maxSize : Nat} (h1 : 0x4000 ≤ maxSize) (h2 : maxSize < 2147483648) {P : Pool} {D : Doc} (h : Sess E maxSize P D) {b : Bool} (hl : D.syms b ≠ [])
    (hfew : (D.syms b).length < 128) {name : BStr} {t : XBT} (hne : name ≠ []) (hnn : ∀ x ∈ name, x ≠ 0) (hnew : ¬ Known (D.syms b) name) (ht : b = false → t ≠ LAST ∧ D.syms true ≠ [])
    (hroom : P.alloc + symsLen (D.syms b) + aa (name.length + 4) ≤ P.limit) {j : Nat} (hj : j < name.length) {ss : List Store} (hs : P.symbolStores b name t = .ok ss) :
    ∃ C, P.KilledIn ss C ∧ RecoversAs E C.file (D.withSym b (name.take j) t) ∧ ¬ Known ((D.withSym b (name.take j) t).syms b) name := by
  obtain ⟨⟨els, V, fl, k⟩, low⟩ := sess_both h1 h2 h
  obtain ⟨A, os, s0, s3, s1, s4, s5, s6, s7, s8, -, -⟩ := symbol_stores k hl hfew (t := t) ⟨hne, hnn⟩ hnew (fun hb => ⟨(ht hb).1, (k.tabs true).some (ht hb).2⟩) hroom
  rw [hs] at s1
  cases s1
  obtain ⟨-, -, r3⟩ := record_part s8.sees.ok b name t s4
  have e := (setSyms_self D b (D.syms b) false).1
  have kb := begun_recovers (E := E) s8 low (p := name.take j) (t := t) s6 s5 (by rw [e]; exact s7) (by rw [e]; exact hfew) s4 (fun x hx => hnn x (List.mem_of_mem_take hx))
    (by rw [List.length_take]; omega)
  rw [withSym_any] at kb
  refine ⟨_, ?_, kb, ?_⟩
  · obtain ⟨done, rest, d1, d2⟩ := r3 j (by omega)
    rw [d1]
    refine ⟨os ++ done, rest, by rw [List.append_assoc], ?_⟩
    rcases d2 with d2 | ⟨a, bs, rest', Q, m, e', d2, d3⟩
    · left; rw [stores_append, s3, Out.ok_bind]; exact d2
    · right; exact ⟨a, bs, rest', Q, m, e', by rw [stores_append, s3, Out.ok_bind]; exact d2, d3⟩
  · rintro ⟨s, s1, s2⟩
    have e2 : (D.withSym b (name.take j) t).syms b = D.syms b ++ [⟨name.take j, t⟩] := (setSyms_self D b _ _).1
    rw [e2] at s1
    rcases List.mem_append.1 s1 with s1 | s1
    · exact hnew ⟨s, s1, s2⟩
    · simp only [List.mem_cons, List.not_mem_nil, or_false] at s1
      rw [s1] at s2
      simp only at s2
      have := congrArg List.length s2
      rw [List.length_take] at this
      omega

/-- an attribute is registered: the stores, and the process is killed when two bytes of the name have been written -/
theorem half_name : (match clr4.symbolStores false (b8 "name") STRING with
    | .ok ss => (match clr4.stores (ss.take (ss.length - 3)) with
      | .ok C => (match openFile demoEnv false 0x8000 C.file with
        | .ok (some g) => (match g.pool.allRegistered demoEnv with
          | .ok (R, true) => decide (R.symName false 0 = .ok (some (b8 "id")) ∧ R.symName false 1 = .ok (some (b8 "na")) ∧ R.symType false 1 = .ok (some STRING))
          | _ => false)
        | _ => false)
      | _ => false)
    | _ => false) = true := by decide +kernel

/-- the stores of this call -/
theorem half_stores : ∃ D ss, Sess demoEnv 0x8000 clr4 D ∧ D.syms false = [⟨b8 "id", INT32⟩] ∧ D.syms true ≠ [] ∧ D.forest.Elem 112 ∧ clr4.symbolStores false (b8 "name") STRING = .ok ss := by
  obtain ⟨D, d1, d2, d3, d4, d5⟩ := clr_sess4
  have hn := half_name
  cases hs : clr4.symbolStores false (b8 "name") STRING with
  | ok ss => exact ⟨D, ss, d1, d3, by rw [d2]; simp, d5, rfl⟩
  | fail => rw [hs] at hn; simp at hn
  | ub => rw [hs] at hn; simp at hn

theorem half_room : clr4.alloc + symsLen [⟨b8 "id", INT32⟩] + aa ((b8 "name").length + 4) ≤ clr4.limit := by decide +kernel

/-- the theorems hold of this call -/
example : ∃ D ss, Sess demoEnv 0x8000 clr4 D ∧ D.forest.Elem 112 ∧ clr4.symbolStores false (b8 "name") STRING = .ok ss ∧
    (∃ C, clr4.KilledIn ss C ∧ RecoversAs demoEnv C.file (D.withSym false (b8 "na") STRING)) ∧ (∀ C, clr4.KilledIn ss C → RecoversAs demoEnv C.file D ∨
      ∃ j ≤ (b8 "name").length, ∃ t', (t' = STRING ∨ j = 0 ∧ t' = NULL) ∧ RecoversAs demoEnv C.file (D.withSym false ((b8 "name").take j) t')) := by
  obtain ⟨D, ss, d1, d2, d3, d4, hs⟩ := half_stores
  have hk : ¬ Known (D.syms false) (b8 "name") := by rw [d2]; rintro ⟨s, s1, s2⟩; simp only [List.mem_cons, List.not_mem_nil, or_false] at s1; rw [s1] at s2; exact absurd s2 (by decide)
  have hr : clr4.alloc + symsLen (D.syms false) + aa ((b8 "name").length + 4) ≤ clr4.limit := by rw [d2]; exact half_room
  have hl : D.syms false ≠ [] := by rw [d2]; simp
  have hf : (D.syms false).length < 128 := by rw [d2]; decide
  refine ⟨D, ss, d1, d4, hs, ?_, fun C hC => C69_symbol_partial (by decide) (by decide) d1 hl hf (by decide) (by decide) hk (fun _ => ⟨by decide, d3⟩) hr hs hC⟩
  obtain ⟨C, c1, c2, -⟩ := C69_symbol_false (by decide) (by decide) d1 hl hf (by decide) (by decide) hk (fun _ => ⟨by decide, d3⟩) hr (j := 2) (by decide) hs
  exact ⟨C, c1, c2⟩

/-- the stores of this call are the call -/
example : ∃ Q ss, clr4.register false (b8 "name") STRING = .ok (Q, 1) ∧ clr4.symbolStores false (b8 "name") STRING = .ok ss ∧ clr4.stores ss = .ok Q := by
  obtain ⟨D, ss, d1, d2, d3, d4, hs⟩ := half_stores
  have hk : ¬ Known (D.syms false) (b8 "name") := by rw [d2]; rintro ⟨s, s1, s2⟩; simp only [List.mem_cons, List.not_mem_nil, or_false] at s1; rw [s1] at s2; exact absurd s2 (by decide)
  have hr : clr4.alloc + symsLen (D.syms false) + aa ((b8 "name").length + 4) ≤ clr4.limit := by rw [d2]; exact half_room
  obtain ⟨Q, hq⟩ : ∃ Q, clr4.register false (b8 "name") STRING = .ok (Q, 1) := ⟨_, poolOfReg_eq (by decide +kernel)⟩
  have := (C69_symbol_stores (Q := Q) (by decide) (by decide) d1 (b := false) (by rw [d2]; simp) (by rw [d2]; decide) (by decide) (by decide) hk (fun _ => ⟨by decide, d3⟩) hr (t := STRING)).1 (by rw [d2]; exact hq)
  obtain ⟨ss', e1, e2⟩ := this
  exact ⟨Q, ss', hq, e1, e2⟩

end BX
