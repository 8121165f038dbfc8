import Verif.Model.UMap

/-!
# The keys that a look-up compares

`findNodeIndex` of `Model/UMap.lean` once more, with the stored keys that it compares with the key it looks for, in this order.
-/

namespace Coil
namespace UMap

variable {K V : Type} [DecidableEq K] (hash : K → Nat)

/-- The loop of `findNodeIndex` (UnorderedMap.h 314-326) and the keys compared in line 319. -/
def findLoopV (nodes : List (UNode K V)) (k : K) : Nat → Option Nat → Res (Option Nat × List K)
  | _, none => .ok (none, [])
  | 0, some _ => .diverge
  | fuel + 1, some i => do
    let nd ← readAt nodes i
    if nd.key = k then .ok (some i, [nd.key])
    else do
      let (o, ks) ← findLoopV nodes k fuel nd.next
      .ok (o, nd.key :: ks)

/-- `findNodeIndex` (UnorderedMap.h 308-327). -/
def findIndexV (m : UMap K V) (k : K) : Res (Option Nat × List K) := do
  let b ← bucketOf hash m k
  let first ← readAt m.buckets b
  findLoopV m.nodes k (m.nodes.length + 1) first

end UMap
end Coil
