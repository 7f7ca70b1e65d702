import Verif.Model.CoefHeap

/-!
# Histories that do not edit the shared default
-/

namespace Oneka
namespace Mem

/-- an in-place edit of a model whose coefficients are the default's -/
def EditsDefault (s : Mem) : MemOp → Prop
  | .setItem i _ _ => s.models[i]? = some 0
  | _ => False

/-- no operation of the history does that -/
def Careful : Mem → List MemOp → Prop
  | _, [] => True
  | s, op :: ops => ¬ s.EditsDefault op ∧ Careful (s.step op).1 ops

end Mem
end Oneka
