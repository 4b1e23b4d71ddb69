import Verif.Spec.Log
/-
Sequences of calls of `Write`.
-/
namespace BX.Spec
open BX XBT

/-- `Doc.Small` of all trees of a batch -/
def Doc.SmallAll (D : Doc) (n : Nat) : List ETree → Prop :=
  D.EveryAll (fun e => (D.forest.at' (.attrs e)).length ≤ 32767 ∧ (D.type e = SHA1 → e + 48 ≤ n)) (fun a => D.type a = SHA1 → a + 48 ≤ n)

/-- a call of `Write` in the state `P`, with document `D`, for the batch `Ts` from `e` on -/
structure WriteCall where
  P : Pool
  D : Doc
  e : Nat
  Ts : List ETree
  bufs : Nat → Mem
  deep : Nat
  fuel : Nat

/-- the call is made in a state of a history of a document with the symbols `syms`, for a batch; the file of the document is at most about twice as
big as it was when the creator, whose buffer has `limit` bytes, was made; the bounds of loops are big enough -/
structure WriteCall.Valid (E : Env) (maxSize : Nat) (limit : Nat) (syms : Bool → List Sym) (w : WriteCall) : Prop where
  sess : Sess E maxSize w.P w.D
  ready : ∀ b, w.D.ready b = true
  syms : w.D.syms = syms
  batch : w.D.Batch w.e w.Ts
  small : w.D.SmallAll w.P.fileSize w.Ts
  room : 16 + 2 * w.P.fileSize ≤ limit
  deep : w.D.stepsAll w.Ts ≤ w.deep
  fuel : w.Ts.length ≤ w.fuel

/-- all calls, one after another -/
def writeAll (c : Ctx) : List WriteCall → Img → Out Img
  | [], f => .ok f
  | w :: ws, f => do
    let r ← w.P.write c w.bufs w.deep w.fuel f w.e
    writeAll c ws r.2

end BX.Spec
