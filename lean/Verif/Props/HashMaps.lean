import Verif.Proofs.HashMaps
import Verif.Props.Routing
import Mathlib.Data.List.Dedup
import Mathlib.Data.List.Perm.Basic
/-!
# C103: hash tables and their random keys do not matter

std's `HashMap` keeps its entries in an order that depends on keys drawn at random for each run, finds them by probing groups of control bytes, and
moves all of them when it grows.  The other models have association lists instead.  Here: whatever the hash function (even one that sends all keys to one
hash), whatever the width of a group, and whatever was inserted, a table gives back the value that was inserted last under a key, its probing always
ends, it never holds more than its capacity, and the program with hash tables is the program with lists.
-/

namespace Seiren

open Hb (Table)

section
variable {K V : Type} [DecidableEq K]

/-- The table after the inserts, in this order. -/
def inserted (H : K → Nat) (e : Nat) (kvs : List (K × V)) : Table K V := kvs.foldl (fun t kv => Hb.insert H (2 ^ e) t kv.1 kv.2) Table.new

theorem inserted_rep (H : K → Nat) (e : Nat) (kvs : List (K × V)) : Hb.Rep H (2 ^ e) (inserted H e kvs) kvs.reverse := by
  induction kvs using List.reverseRecOn with
  | nil => exact Hb.rep_new H e
  | append_singleton kvs kv ih =>
    unfold inserted at ih ⊢
    rw [List.foldl_append, List.reverse_append]
    exact ih.insert kv.1 kv.2

/-- **C103, the map.** A table gives back what was inserted last under the key: for all hash functions, widths of groups, keys and values. -/
theorem C103_table (H : K → Nat) (e : Nat) (kvs : List (K × V)) (k : K) :
    Hb.get H (2 ^ e) (inserted H e kvs) k = kvs.reverse.lookup k := (inserted_rep H e kvs).same k

/-- **C103, probing ends.** Neither looking for a key nor looking for an empty bucket runs out of the fuel of the model, which is a round more than there are
buckets; looking for an empty bucket finds one. -/
theorem C103_ends (H : K → Nat) (e : Nat) (kvs : List (K × V)) (k : K) :
    (∃ r, Hb.find H (2 ^ e) (inserted H e kvs) k = some r) ∧
    ∃ i, Hb.slot (2 ^ e) (inserted H e kvs) (H k) = some i ∧ (inserted H e kvs)[i]? = some none := by
  have hg := (inserted_rep H e kvs).good
  constructor
  · rcases Hb.find_spec hg k with ⟨i, _, h, _⟩ | ⟨h, _⟩
    · exact ⟨_, h⟩
    · exact ⟨_, h⟩
  · obtain ⟨n, hn, _⟩ := hg.size
    obtain ⟨j, hj⟩ := hg.empty
    obtain ⟨i, h1, h2, _⟩ := Hb.slot_spec (e := e) (H k) hn hj
    exact ⟨i, h1, h2⟩

/-- **C103, sizes.** A table has as many items as there are different keys, none in excess of its capacity, and 1, 4, 8, 16, ... buckets. -/
theorem C103_size (H : K → Nat) (e : Nat) (kvs : List (K × V)) :
    Hb.items (inserted H e kvs) = (kvs.map Prod.fst).dedup.length ∧
    Hb.items (inserted H e kvs) ≤ Hb.capacity (inserted H e kvs).length ∧
    ∃ n, (inserted H e kvs).length = 2 ^ n ∧ n ≠ 1 := by
  have hr := inserted_rep H e kvs
  have hg := hr.good
  refine ⟨?_, hg.room, ?_⟩
  · have hlen : Hb.items (inserted H e kvs) = (((inserted H e kvs).filterMap id).map Prod.fst).length := by
      unfold Hb.items
      rw [List.length_map, List.length_filterMap_eq_countP]
      rfl
    rw [hlen]
    refine List.Perm.length_eq ((List.perm_ext_iff_of_nodup ?_ (List.nodup_dedup _)).mpr ?_)
    · rw [List.Nodup, List.pairwise_map, List.pairwise_filterMap, List.pairwise_iff_getElem]
      intro i j hi hj hij a ha b hb he
      simp only [id] at ha hb
      have := hg.uniq i j a b (by rw [List.getElem?_eq_getElem hi, ha]) (by rw [List.getElem?_eq_getElem hj, hb]) he
      omega
    · intro k
      rw [List.mem_dedup, List.mem_map, List.mem_map]
      constructor
      · rintro ⟨⟨a, v⟩, h1, rfl⟩
        rw [List.mem_filterMap] at h1
        obtain ⟨o, ho, hoe⟩ := h1
        simp only [id] at hoe
        subst hoe
        have h2 := (Hb.get_iff hg a v).mpr ho
        rw [hr.same a, List.lookup_eq_some_iff] at h2
        obtain ⟨l1, l2, h3, _⟩ := h2
        refine ⟨(a, v), ?_, rfl⟩
        rw [← List.mem_reverse, h3]
        simp
      · rintro ⟨⟨a, v⟩, h1, rfl⟩
        have h2 : (kvs.reverse.lookup a).isSome := by
          rw [Option.isSome_iff_ne_none, ne_eq, List.lookup_eq_none_iff]
          intro h
          have := h (a, v) (List.mem_reverse.mpr h1)
          simp at this
        obtain ⟨v', h3⟩ := Option.isSome_iff_exists.mp h2
        rw [← hr.same a, Hb.get_iff hg] at h3
        exact ⟨(a, v'), List.mem_filterMap.mpr ⟨_, h3, rfl⟩, rfl⟩
  · obtain ⟨n, hn, h⟩ := hg.size
    exact ⟨n, hn, by omega⟩

end

/-- **C103, documents.** `into_mir` makes the same document, whatever the hash functions. -/
theorem C103_document (hs : Hashes) (m : Module) : m.intoMirHb hs = m.intoMirPg := intoMirHb_eq hs m

/-- **C103, drawings.** Laying out, routing and drawing a module give the same result, whatever the hash functions. -/
theorem C103_drawing (hs : Hashes) (rnd sq : Rat → Rat) (w : Nat → Nat) (q : Queue) (m : Module) :
    drawModuleHb hs rnd sq w q m = drawModulePgM rnd sq w q m := drawModuleHb_eq hs rnd sq w q m

/-- **C103, the program.** What the program prints, reports and returns does not depend on the hash functions: it is what the program with association
lists does. -/
theorem C103_program (hs : Hashes) (l : Libraries) (w : RawWorld) (d : Devices) : runWholeHb hs l w d = runWhole l w d := runWholeHb_eq hs l w d

/-! ## Cases -/

/-- Ten inserts, two of them under keys that are there already. -/
def someInserts : List (Nat × Nat) := [(5, 0), (9, 1), (13, 2), (5, 3), (1, 4), (17, 5), (21, 6), (9, 7), (25, 8), (33, 9)]

/-- A good hash function, and one that sends all keys to one hash: the buckets are different, but not what one finds. -/
example :
    inserted (· * 2) 4 someInserts ≠ inserted (fun _ => 3) 4 someInserts ∧
    (inserted (fun _ => 3) 4 someInserts).length = 16 ∧
    (inserted (fun _ => 3) 1 someInserts).map (Option.map Prod.fst) =
      [some 33, none, none, some 17, some 21, some 9, some 13, none, none, some 5, some 1, none, none, none, none, some 25] ∧
    ∀ k ∈ [5, 9, 13, 1, 17, 21, 25, 33, 2],
      Hb.get (fun _ => 3) 2 (inserted (fun _ => 3) 1 someInserts) k = Hb.get (· * 2) 16 (inserted (· * 2) 4 someInserts) k := by decide +kernel

/-- All keys collide, and a group has two bytes. -/
def worstHashes : Hashes := ⟨1, fun _ => 7, fun _ => 7, fun _ _ _ => ⟨fun _ => 7, fun _ => 7, fun _ => 7⟩⟩

set_option maxRecDepth 1000000 in
/-- Three tables, two of them related: the routes found with the worst hash functions. -/
example : (match threeTables.intoMirHb worstHashes with
    | .ok p =>
      match drawEdgePathHb worstHashes Coordinates.exact (· % 4294967296) HoleHeap.queue (p.updateNodes fun d => placeTerminalPorts (placeNodes d).1) .new with
      | .ok p => some (p.graph.edgeWeights.map EdgeData.pathPoints)
      | .error _ => none
    | .error _ => none) =
    some [some [⟨350, 205 / 2⟩, ⟨390, 205 / 2⟩, ⟨390, 160⟩, ⟨770, 160⟩, ⟨770, 275 / 2⟩, ⟨810, 275 / 2⟩]] := by decide +kernel

end Seiren
