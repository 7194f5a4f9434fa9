import Verif.Model.Basic
/-!
# std's `HashMap`

The other models have association lists in place of `HashMap`s (erd.rs:50 `node_paths`, layout.rs:61 `terminal_ports`, and petgraph's `astar`:
`scores`, `estimate_scores`, `came_from`).  Here is the hash table of std, hashbrown's `RawTable`, with its control bytes, groups, probing and
growth.  Its source is not in the sandbox; this follows the published source of hashbrown 0.12 (trusted base).

The hash function is a parameter: std's `RandomState` draws its keys at random for each run.  The width of a group is 2 to the `e`: 16 with SSE2, 8
otherwise.  Nothing is ever removed from a map in this code, so there are no bytes `DELETED`, and `growth_left` is the capacity less the items.
-/

namespace Seiren.Hb

/-- hashbrown `RawTable`: the buckets; `none` is an empty one (its control byte is `EMPTY`).  A full one has the upper seven bits of the hash of its key
as control byte. -/
abbrev Table (K V : Type) := List (Option (K × V))

variable {K V : Type}

/-- hashbrown `RawTable::new`: the table that is not allocated has a bucket mask of 0 and no capacity. -/
def Table.new : Table K V := [none]

/-- hashbrown `h2`: the upper seven bits of a hash. -/
def tag (h : Nat) : Nat := h / 2 ^ 57 % 128

/-- hashbrown `RawTableInner::ctrl(j)`: what the control byte `j` stands for.  There are as many control bytes as buckets, and then a group more: they
repeat those of the first buckets; in tables smaller than a group there are bytes `EMPTY` in between (`set_ctrl`). -/
def ctrl (W : Nat) (t : Table K V) (j : Nat) : Option (K × V) :=
  if t.length ≤ j ∧ j < W then none else (t[j % t.length]?).join

/-- hashbrown `RawTableInner::find_inner` and the loop over a group (`match_byte`): the control bytes are compared first, then the keys.  The bucket of
the key, `some none` if there is none; `none` if the fuel runs out (`C103_ends`: it does not). -/
def findLoop [DecidableEq K] (H : K → Nat) (W : Nat) (t : Table K V) (key : K) : Nat → Nat → Nat → Option (Option Nat)
  | 0, _, _ => none
  | fuel + 1, pos, stride =>
    match (List.range W).find? (fun i => match ctrl W t (pos + i) with
      | some kv => decide (tag (H kv.1) = tag (H key)) && decide (kv.1 = key)
      | none => false) with
    | some i => some (some ((pos + i) % t.length))
    | none =>
      -- `match_empty().any_bit_set()`
      if (List.range W).any fun i => (ctrl W t (pos + i)).isNone then some none
      -- `ProbeSeq::move_next`
      else findLoop H W t key fuel ((pos + (stride + W)) % t.length) (stride + W)

/-- hashbrown `RawTable::find`. -/
def find [DecidableEq K] (H : K → Nat) (W : Nat) (t : Table K V) (key : K) : Option (Option Nat) :=
  findLoop H W t key (t.length + 1) (H key % t.length) 0

/-- hashbrown `HashMap::get`. -/
def get [DecidableEq K] (H : K → Nat) (W : Nat) (t : Table K V) (key : K) : Option V :=
  match find H W t key with
  | some (some i) => (t[i]?).join.map Prod.snd
  | _ => none

/-- hashbrown `RawTableInner::find_insert_slot`: an empty bucket; in a table smaller than a group the byte found may be one of those in between. -/
def slotLoop (W : Nat) (t : Table K V) : Nat → Nat → Nat → Option Nat
  | 0, _, _ => none
  | fuel + 1, pos, stride =>
    match (List.range W).find? (fun i => (ctrl W t (pos + i)).isNone) with
    | some i =>
      let r := (pos + i) % t.length
      if (t[r]?).join.isSome then (List.range W).find? fun i => (ctrl W t i).isNone else some r
    | none => slotLoop W t fuel ((pos + (stride + W)) % t.length) (stride + W)

/-- hashbrown `RawTableInner::find_insert_slot`. -/
def slot (W : Nat) (t : Table K V) (hash : Nat) : Option Nat := slotLoop W t (t.length + 1) (hash % t.length) 0

/-- hashbrown `prepare_insert_slot` and writing the bucket. -/
def place (H : K → Nat) (W : Nat) (t : Table K V) (kv : K × V) : Table K V :=
  match slot W t (H kv.1) with
  | some i => t.set i (some kv)
  | none => t

/-- hashbrown `bucket_mask_to_capacity`. -/
def capacity (n : Nat) : Nat := if n ≤ 8 then n - 1 else n / 8 * 7

/-- hashbrown `capacity_to_buckets`; `next_power_of_two` of a number greater than 1 is the power of two after the highest bit of the number before. -/
def bucketsFor (cap : Nat) : Nat := if cap < 8 then (if cap < 4 then 4 else 8) else 2 ^ (Nat.log2 (cap * 8 / 7 - 1) + 1)

/-- The number of items. -/
def items (t : Table K V) : Nat := t.countP Option.isSome

/-- hashbrown `RawTable::reserve_rehash(1)`, `resize`: all items are put into a new table, in the order of the buckets. -/
def grow (H : K → Nat) (W : Nat) (t : Table K V) : Table K V :=
  (t.filterMap id).foldl (place H W) (List.replicate (bucketsFor (max (items t + 1) (capacity t.length + 1))) none)

/-- hashbrown `RawTable::reserve(1)`. -/
def reserve (H : K → Nat) (W : Nat) (t : Table K V) : Table K V :=
  if capacity t.length - items t < 1 then grow H W t else t

/-- hashbrown `HashMap::insert`; `entry` does the same, one half after the other. -/
def insert [DecidableEq K] (H : K → Nat) (W : Nat) (t : Table K V) (key : K) (v : V) : Table K V :=
  match find H W t key with
  | some (some i) => t.set i (some (key, v))
  | _ => place H W (reserve H W t) (key, v)

end Seiren.Hb
