import Verif.Model.Dict
/-
The size of the data of a document. Models src/bin_write_plugin.cpp:2360-2364.
-/
namespace BX

/-- `BW_plugin::getDataSize`, bin_write_plugin.cpp:2360-2364, of an open document: the pool (`getNamesSize` may correct `max_id` of a table) and the size.
Simplified: the unsigned difference that is converted to `int` is a difference of integers, and the tables are read in the order of the text, which C++ leaves open. -/
def Pool.dataSize (P : Pool) : Out (Pool × Int) := do
  let r ← P.namesSize P.tags
  let P := { P with tags := r.2 }
  let s ← P.namesSize P.params
  return ({ P with params := s.2 }, (P.alloc : Int) - poolHeader - r.1 - s.1)

end BX
