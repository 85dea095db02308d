/-!
# Stable sorting

`slice::sort_by` / `sort_by_key` of the Rust standard library are stable sorts. For a comparator
that is a total preorder the result of a stable sort is unique (`stableSort_unique` in
`Lemmas/Sort.lean`), so any stable algorithm can stand for it; insertion sort is used here because it
is structurally recursive. For comparators that are no total preorder Rust does not specify the order
(and may panic); theorems about sorted results therefore assume a total preorder.
-/

namespace Firm

variable {α : Type}

/-- Insert `x` before the first element that is not smaller. -/
def insertSorted (le : α → α → Bool) (x : α) : List α → List α
  | [] => [x]
  | y :: ys => if le x y then x :: y :: ys else y :: insertSorted le x ys

/-- Stable sort. -/
def stableSort (le : α → α → Bool) : List α → List α
  | [] => []
  | x :: xs => insertSorted le x (stableSort le xs)

end Firm
