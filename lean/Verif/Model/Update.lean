import Verif.Model.Source
/-
`CheckAndUpdateTypes`. Models src/bin_write_plugin.cpp:2975-3041. The log is not modelled.
-/
namespace BX
open XBT

/-- `ConversionStats`, bin_write_plugin.cpp:2975-2981 -/
structure ConvStats where
  bad : Nat := 0
  loose : Nat := 0
  unconvertable : Nat := 0
  failed : Nat := 0
deriving DecidableEq

/-- `s_OnCheckTypes`, bin_write_plugin.cpp:3010-3036: its whole body is taken out by `#if 0` -/
def onCheckTypes (s : ConvStats) (_ : Int × Nat) : ConvStats := s

/-- `s_OnUpdateTypes`, bin_write_plugin.cpp:3038-3041: the body is a comment -/
def onUpdateTypes (P : Pool) (s : ConvStats) (_ : Int × Nat) : Pool × ConvStats := (P, s)

/-- `ForAllChildrenRecursively` from the root, which does nothing without one, bin_write_plugin.cpp:2835 -/
def Pool.walkRoot (P : Pool) (fuel : Nat) : Out (List (Int × Nat)) := if P.root = 0 then return [] else P.walk fuel P.root 0

/-- `CheckAndUpdateTypes`, bin_write_plugin.cpp:2983-3008. The callbacks of the second pass change no links, so that the elements they are called with are
those of an iteration beforehand. -/
def Pool.checkAndUpdateTypes (P : Pool) (looseEnabled : Bool) (fuel : Nat) : Out (Pool × Bool) := do
  let l ← P.walkRoot fuel
  let s := l.foldl onCheckTypes {}
  if s.bad = 0 then return (P, true)
  else if s.unconvertable > 0 then return (P, false)
  else if !looseEnabled && decide (s.loose > 0) then return (P, false)
  else do
    let l ← P.walkRoot fuel
    let r := l.foldl (fun r e => onUpdateTypes r.1 r.2 e) (P, s)
    return (r.1, decide (r.2.failed = 0))

end BX
