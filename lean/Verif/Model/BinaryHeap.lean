import Verif.Model.Route
/-!
# Model of `std::collections::BinaryHeap<MinScored<u32, NodeIndex>>`

`MinScored` reverses the order, so the max-heap of std keeps an entry of least score at the root.  std moves a
"hole" through the array; the model swaps neighbouring entries, which leaves the same array.
-/

namespace Seiren.BinHeap

/-- `data[i]` -/
def at' (h : List Entry) (i : Nat) : Entry := h.getD i (0, 0)

/-- Exchange the entries at `i` and `j`. -/
def swap (h : List Entry) (i j : Nat) : List Entry := (h.set i (at' h j)).set j (at' h i)

/-- std `BinaryHeap::sift_up(0, pos)`: while the entry is greater (has a smaller score) than its parent, move it
up.  `pos` itself is enough fuel. -/
def siftUp : Nat → List Entry → Nat → List Entry
  | 0, h, _ => h
  | fuel + 1, h, pos =>
    if pos > 0 then
      let parent := (pos - 1) / 2
      -- `hole.element() <= hole.get(parent)` in the reversed order
      if (at' h pos).1 ≥ (at' h parent).1 then h
      else siftUp fuel (swap h pos parent) parent
    else h

/-- std `BinaryHeap::sift_down_to_bottom(0)`, first part: move the entry at `pos` to the bottom along the greater
children; returns its final position. -/
def siftToBottom : Nat → List Entry → Nat → List Entry × Nat
  | 0, h, pos => (h, pos)
  | fuel + 1, h, pos =>
    let child := 2 * pos + 1
    if child + 1 < h.length then
      -- `child += (hole.get(child) <= hole.get(child + 1)) as usize` in the reversed order
      let child := if (at' h child).1 ≥ (at' h (child + 1)).1 then child + 1 else child
      siftToBottom fuel (swap h pos child) child
    else if child + 1 = h.length then (swap h pos child, child)
    else (h, pos)

/-- std `BinaryHeap::push`. -/
def push (h : List Entry) (e : Entry) : List Entry := siftUp h.length (h ++ [e]) h.length

/-- std `BinaryHeap::pop`. -/
def pop (h : List Entry) : Option (Entry × List Entry) :=
  match h.getLast? with
  | none => none
  | some last =>
    match h.dropLast with
    | [] => some (last, [])
    | root :: tail =>
      let (h', pos) := siftToBottom (last :: tail).length (last :: tail) 0
      some (root, siftUp pos h' pos)

/-- std's `BinaryHeap` as a `Queue`. -/
def queue : Queue := ⟨push, pop⟩

end Seiren.BinHeap
