import Verif.Model.Py
/-!
# crypto/merkletree.py
-/

namespace TF

/-- crypto/merkletree.py:68-78 `SubTree` (the `next` pointers form the list). -/
structure SubTree where
  height : Nat
  sum : Bytes
  deriving DecidableEq, Repr

/-- crypto/merkletree.py:94-103 `leaf_sum`. -/
def leafSum (H : Bytes → Bytes) (data : Bytes) : Bytes := H (0 :: data)

/-- crypto/merkletree.py:106-116 `node_sum`. -/
def nodeSum (H : Bytes → Bytes) (a b : Bytes) : Bytes := H (1 :: (a ++ b))

/-- crypto/merkletree.py:119-126 `join_subtree` (`next` is `a.next`, i.e. the list tail after `a`). -/
def joinSubtree (H : Bytes → Bytes) (a b : SubTree) : SubTree :=
  ⟨a.height + 1, nodeSum H a.sum b.sum⟩

/-- crypto/merkletree.py:47-50: the `while` loop of `push`; head first. -/
def collapse (H : Bytes → Bytes) : SubTree → List SubTree → List SubTree
  | t, [] => [t]
  | t, n :: rest => if t.height = n.height then collapse H (joinSubtree H n t) rest else t :: n :: rest

/-- crypto/merkletree.py:27-50 `Tree.push`. -/
def merklePush (H : Bytes → Bytes) (st : List SubTree) (data : Bytes) : List SubTree :=
  collapse H ⟨0, leafSum H data⟩ st

/-- crypto/merkletree.py:62-65: the `while` loop of `root`. -/
def merkleFoldRoot (H : Bytes → Bytes) : SubTree → List SubTree → Bytes
  | t, [] => t.sum
  | t, n :: rest => merkleFoldRoot H (joinSubtree H n t) rest

/-- crypto/merkletree.py:52-65 `Tree.root`. For the empty tree the code calls the *built-in* `sum(hash_func, bytearray())`
(the helper is called `sum_`), which raises `TypeError` because a function is not iterable. -/
def merkleRoot (H : Bytes → Bytes) : List SubTree → Res Bytes
  | [] => .error .typeError
  | t :: rest => .ok (merkleFoldRoot H t rest)

/-- A tree after a sequence of pushes on a fresh `Tree` (crypto/merkletree.py:23-25, 27-50). -/
def merklePushAll (H : Bytes → Bytes) (leaves : List Bytes) : List SubTree :=
  leaves.foldl (merklePush H) []

end TF
