import Verif.Model.Handles
/-
C84 speaks about what a process holds after a history of calls. This file says what answers the system may give, in which order the methods of an object are meant to be called, and what a
history is.
-/
namespace BX.Spec
open BX

/-- two ranges of pages do not overlap -/
def Apart (m n : Nat × Nat) : Prop := m.1 + m.2 ≤ n.1 ∨ n.1 + n.2 ≤ m.1

/-- the mappings of a process are not empty and do not overlap -/
structure Fine (s : Sys) : Prop where
  pos : ∀ m ∈ s.maps, 0 < m.2
  apart : s.maps.Pairwise Apart

/-- `mmap` maps a positive number of bytes to pages that are free -/
def Free (s : Sys) (a size : Nat) : Prop := 0 < size ∧ ∀ m ∈ s.maps, Apart (a, pages size) m

/-- the answers that the system may give: new mappings are free pages, and what is given back is taken (for a writable document, the second mapping has the size that its header says) -/
def Honest (s : Sys) : Obj → Act → Prop
  | _, .readerInit k => ∀ a, k.map = some a → Free s a k.size
  | _, .readerFin k => k.unmaps = true ∧ k.closes = true
  | _, .jsonInit k => ∀ a, k.map = some a → Free s a k.size.toNat
  | .bw b, .bwInit k => (∀ a, k.map 0 = some a → Free s a b.max) ∧ ∀ a, k.map 1 = some a → Free s a (k.msize 0)
  | _, _ => True

/-- what is known about an object from the calls and their results: it is destroyed; it is new or finalized; a reader is initialized (with whatever result); the initialization of a document has
failed; a document is initialized; a JSON source of some size is initialized (with whatever result); a creator has appended -/
inductive Phase where
  | gone | closed | reading | tried | ready | parsed (size : Int) | appending
deriving DecidableEq, Repr

/-- the order of the calls: initialize once, then finalize. A reader is finalized before it is destroyed. A document may be initialized again after a success, but not after a failure, and
its size is not changed between a failed initialization and the finalization. The size of a JSON file stays the same while it is used. -/
def next : Phase → Act → Bool → Option Phase
  | .closed, .readerInit _, _ => some .reading
  | .closed, .readerFin _, _ => some .closed
  | .reading, .readerFin _, _ => some .closed
  | .closed, .jsonInit k, _ => some (.parsed k.size)
  | .closed, .jsonUpdate _, _ => some .closed
  | .parsed n, .jsonUpdate m, _ => if m = n then some (.parsed n) else none
  | .closed, .bwInit _, r => some (if r then .ready else .tried)
  | .ready, .bwInit _, _ => some .ready
  | .closed, .bwSetMax _, _ => some .closed
  | .ready, .bwSetMax _, _ => some .ready
  | .closed, .bwFin, _ => some .closed
  | .tried, .bwFin, _ => some .closed
  | .ready, .bwFin, _ => some .closed
  | .closed, .append _, r => some (if r then .appending else .closed)
  | .appending, .append _, _ => some .appending
  | .closed, .write _, _ => some .closed
  | .appending, .write _, _ => some .appending
  | .closed, .kill, _ => some .gone
  | .tried, .kill, _ => some .gone
  | .ready, .kill, _ => some .gone
  | .parsed _, .kill, _ => some .gone
  | .appending, .kill, _ => some .gone
  | _, _, _ => none

/-- nothing is to be held for an object that is destroyed, new or finalized -/
def Phase.done : Phase → Bool
  | .gone => true
  | .closed => true
  | _ => false

/-- a JSON file is opened by the call -/
def opensJson : Act → Nat
  | .jsonInit k => if 0 < k.size ∧ k.fd.isSome then 1 else 0
  | _ => 0

/-- the objects as their constructors make them -/
def NewObj (o : Obj) : Prop := o = .reader Reader.new ∨ o = .json JsonObj.new ∨ (∃ n, o = .bw (BwObj.new n)) ∨ o = .creator ⟨none⟩

/-- a process that holds `s0` makes objects and calls their methods in any order that `next` allows, interleaved in any way: what it holds, its objects, what is known about them, and the number
of JSON files that were opened -/
inductive Life (s0 : Sys) : Sys → List Obj → List Phase → Nat → Prop
  | start : Life s0 s0 [] [] 0
  | make {s os ps n} (o : Obj) : Life s0 s os ps n → NewObj o → Life s0 s (os ++ [o]) (ps ++ [.closed]) n
  | act {s os ps n o p r o' s' q} (i : Nat) (a : Act) : Life s0 s os ps n → os[i]? = some o → ps[i]? = some p → Honest s o a → o.act s a = some (r, o', s') → next p a r = some q →
      Life s0 s' (os.set i o') (ps.set i q) (n + opensJson a)

end BX.Spec
