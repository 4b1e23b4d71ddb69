import Verif.Lemmas.Make
import Verif.Model.Crash
/-
The stores of calls that take memory from the pool leave what is there alone.
-/
namespace BX
open XBT

theorem stores_append {P : Pool} : ∀ (xs ys : List Store), P.stores (xs ++ ys) = (P.stores xs >>= fun Q => Q.stores ys)
  | [], ys => by simp [Pool.stores]
  | x :: xs, ys => by
    simp only [List.cons_append, Pool.stores]
    cases P.store1 x with
    | ok Q => simp only [Out.ok_bind]; exact stores_append xs ys
    | fail => rfl
    | ub => rfl

/-- a store into memory that was free in `P` -/
def InFree (P : Pool) : Store → Prop
  | .word a _ | .half a _ | .byte a _ | .bytes a _ => (P.alloc : Int) ≤ a
  | .alloc n => P.alloc ≤ n ∧ n % 4 = 0 ∧ n ≤ P.limit
  | .tab _ _ => False

theorem Got.store1 {P Q R : Pool} (hP : PoolOk P) (g : Got P Q) (hl : Q.limit = P.limit) {s : Store} (hs : InFree P s) (h : Q.store1 s = .ok R) : Got P R ∧ R.limit = P.limit := by
  cases s with
  | word a v =>
    refine ⟨(g.wr (show Q.wr a _ = _ from h) hs).1, ?_⟩
    obtain ⟨_, _, _, rfl⟩ := Pool.wr_ok (show Q.wr a _ = _ from h); exact hl
  | half a v =>
    refine ⟨(g.wr (show Q.wr a _ = _ from h) hs).1, ?_⟩
    obtain ⟨_, _, _, rfl⟩ := Pool.wr_ok (show Q.wr a _ = _ from h); exact hl
  | byte a v =>
    refine ⟨(g.wr (show Q.wr a _ = _ from h) hs).1, ?_⟩
    obtain ⟨_, _, _, rfl⟩ := Pool.wr_ok (show Q.wr a _ = _ from h); exact hl
  | bytes a v =>
    refine ⟨(g.wr (show Q.wr a _ = _ from h) hs).1, ?_⟩
    obtain ⟨_, _, _, rfl⟩ := Pool.wr_ok (show Q.wr a _ = _ from h); exact hl
  | alloc n =>
    obtain ⟨h1, h2, h3⟩ := hs
    cases h
    refine ⟨⟨⟨?_, h2, ?_, g.ok.lim, g.ok.map, g.ok.page⟩, h1, g.file, g.map, g.same, g.keep⟩, hl⟩
    · exact Nat.le_trans hP.head h1
    · show n ≤ Q.limit
      omega
  | tab b T => exact hs.elim

theorem Got.stores {P : Pool} (hP : PoolOk P) : ∀ (ss : List Store) {Q R : Pool}, Got P Q → Q.limit = P.limit → (∀ s ∈ ss, InFree P s) → Q.stores ss = .ok R → Got P R ∧ R.limit = P.limit
  | [], Q, R, g, hl, _, h => by cases h; exact ⟨g, hl⟩
  | s :: ss, Q, R, g, hl, hf, h => by
    obtain ⟨S, h1, h2⟩ := Out.bind_eq_ok (show (Q.store1 s >>= fun S => S.stores ss) = .ok R from h)
    obtain ⟨g', hl'⟩ := g.store1 hP hl (hf s (by simp)) h1
    exact Got.stores hP ss g' hl' (fun x hx => hf x (List.mem_cons_of_mem _ hx)) h2

/-- a process killed while it stores into free memory -/
theorem killed_got {P C : Pool} (hP : PoolOk P) {ss : List Store} (hf : ∀ s ∈ ss, InFree P s) (h : P.KilledIn ss C) : Got P C := by
  obtain ⟨done, rest, rfl, h⟩ := h
  have hd : ∀ s ∈ done, InFree P s := fun s hs => hf s (List.mem_append_left _ hs)
  rcases h with h | ⟨a, bs, rest', Q, m, rfl, h, rfl, hm⟩
  · exact (Got.stores hP done (Got.refl hP) rfl hd h).1
  · obtain ⟨g, -⟩ := Got.stores hP done (Got.refl hP) rfl hd h
    have ha : (P.alloc : Int) ≤ (a : Int) := hf (.bytes a bs) (by simp)
    refine ⟨g.ok.mem _, g.mono, g.file, g.map, g.same, fun i hi => ?_⟩
    rcases hm i with e | e
    · exact e.trans (g.keep i hi)
    · omega

theorem allocStores_fresh {P : Pool} (hP : PoolOk P) {t : XBT} {size : Nat} (hr : P.Room t size) :
    (∀ s ∈ (P.allocStores t size).1, InFree P s) ∧ P.alloc ≤ (P.allocStores t size).2 := by
  have hal := hP.al
  unfold Pool.allocStores
  unfold Pool.Room at hr
  by_cases h8 : xalign t = 8
  · rw [if_pos h8] at hr ⊢
    refine ⟨?_, by simp only; unfold aa8; omega⟩
    intro s hs
    simp only [List.mem_cons, List.not_mem_nil, or_false] at hs
    rcases hs with rfl | rfl | rfl
    · refine ⟨?_, ?_, ?_⟩ <;> unfold aa8 at * <;> omega
    · refine ⟨?_, ?_, ?_⟩ <;> unfold aa8 at * <;> omega
    · show (P.alloc : Int) ≤ ((aa8 P.alloc : Nat) : Int)
      unfold aa8; omega
  · rw [if_neg h8] at hr ⊢
    refine ⟨?_, Nat.le_refl _⟩
    intro s hs
    simp only [List.mem_cons, List.not_mem_nil, or_false] at hs
    rcases hs with rfl | rfl
    · refine ⟨?_, ?_, ?_⟩ <;> unfold aa at * <;> omega
    · exact Int.le_refl _

theorem make_killed {P C : Pool} (hP : PoolOk P) {id : Int} {t : XBT} {size off : Nat} {f : UInt8} {bs : List UInt8} (hr : P.Room t (24 + (size2 t size).toNat))
    (h : P.KilledIn (P.makeStores id t size f off bs) C) : Got P C := by
  obtain ⟨h1, h2⟩ := allocStores_fresh hP hr
  refine killed_got hP (fun s hs => ?_) h
  unfold Pool.makeStores at hs
  simp only [List.mem_append] at hs
  have hk : ∀ k : Nat, (P.alloc : Int) ≤ ((P.allocStores t (24 + (size2 t size).toNat)).2 : Int) + k := fun k => by omega
  rcases hs with (((hs | hs) | hs) | hs) | hs
  · exact h1 s hs
  · simp only [List.mem_cons, List.not_mem_nil, or_false] at hs
    rcases hs with rfl | rfl | rfl | rfl
    · exact hk 7
    · exact hk 12
    · exact hk 8
    · exact hk 0
  · split at hs
    · simp only [List.mem_cons, List.not_mem_nil, or_false] at hs
      subst hs; exact hk 24
    · simp at hs
  · simp only [List.mem_cons, List.not_mem_nil, or_false] at hs
    rcases hs with rfl | rfl | rfl | rfl | rfl | rfl | rfl | rfl
    · exact hk 0
    · exact hk 4
    · exact hk 7
    · exact hk 6
    · exact hk 8
    · exact hk 12
    · exact hk 16
    · exact hk 20
  · simp only [List.mem_cons, List.not_mem_nil, or_false] at hs
    subst hs
    show (P.alloc : Int) ≤ _ + 24 + (off : Int)
    have := hk (24 + off)
    omega

end BX
