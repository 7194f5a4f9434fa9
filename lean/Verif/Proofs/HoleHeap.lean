import Verif.Model.Storage
/-!
# The heap with a hole and the heap with exchanges are the same
-/

namespace Seiren.HoleHeap
open BinHeap (at' swap)

theorem at'_set_self (l : List Entry) {i : Nat} (x : Entry) (h : i < l.length) : at' (l.set i x) i = x := by
  simp [at', h]

theorem at'_set_ne (l : List Entry) {i j : Nat} (x : Entry) (h : i ≠ j) : at' (l.set i x) j = at' l j := by
  simp [at', h]

theorem fill_length (h : Hole) : h.fill.length = h.data.length := by simp [Hole.fill]

theorem moveTo_fill (h : Hole) {i : Nat} (hp : h.pos < h.data.length) (hne : h.pos ≠ i) : (h.moveTo i).fill = swap h.fill h.pos i := by
  unfold Hole.moveTo Hole.fill swap Hole.get
  simp only
  rw [at'_set_self _ _ hp, at'_set_ne _ _ hne, List.set_set]

theorem siftUp_fill : ∀ (fuel : Nat) (h : Hole), h.pos < h.data.length → (siftUp fuel h).fill = BinHeap.siftUp fuel h.fill h.pos
  | 0, h, _ => rfl
  | fuel + 1, h, hp => by
    unfold siftUp BinHeap.siftUp
    by_cases h0 : h.pos > 0
    · simp only [h0, if_true]
      have hne : h.pos ≠ (h.pos - 1) / 2 := by omega
      have e1 : at' h.fill h.pos = h.elt := at'_set_self _ _ hp
      have e2 : at' h.fill ((h.pos - 1) / 2) = h.get ((h.pos - 1) / 2) := at'_set_ne _ _ hne
      rw [e1, e2]
      split
      · rfl
      · have := siftUp_fill fuel (h.moveTo ((h.pos - 1) / 2)) (by simp [Hole.moveTo]; omega)
        rw [this, moveTo_fill h hp hne]
        rfl
    · simp only [h0, if_false]

theorem siftToBottom_fill (len : Nat) : ∀ (fuel : Nat) (h : Hole), h.data.length = len → h.pos < len →
    ((siftToBottom len fuel h).fill, (siftToBottom len fuel h).pos) = BinHeap.siftToBottom fuel h.fill h.pos ∧
    (siftToBottom len fuel h).pos < (siftToBottom len fuel h).data.length
  | 0, h, hl, hp => ⟨rfl, by rw [← hl] at hp; exact hp⟩
  | fuel + 1, h, hl, hp => by
    unfold siftToBottom BinHeap.siftToBottom
    simp only [fill_length, hl]
    by_cases h1 : 2 * h.pos + 1 + 1 < len
    · have h1' : 2 * h.pos + 1 ≤ len - 2 := by omega
      simp only [h1, h1', if_true]
      have e1 : at' h.fill (2 * h.pos + 1) = h.get (2 * h.pos + 1) := at'_set_ne _ _ (by omega)
      have e2 : at' h.fill (2 * h.pos + 1 + 1) = h.get (2 * h.pos + 1 + 1) := at'_set_ne _ _ (by omega)
      rw [e1, e2]
      have key : ∀ c, c < len → h.pos ≠ c →
          ((siftToBottom len fuel (h.moveTo c)).fill, (siftToBottom len fuel (h.moveTo c)).pos) =
            BinHeap.siftToBottom fuel (swap h.fill h.pos c) c ∧
          (siftToBottom len fuel (h.moveTo c)).pos < (siftToBottom len fuel (h.moveTo c)).data.length := by
        intro c hc hne
        have := siftToBottom_fill len fuel (h.moveTo c) (by simp [Hole.moveTo, hl]) hc
        rw [moveTo_fill h (by omega) hne] at this
        exact this
      by_cases hk : (h.get (2 * h.pos + 1)).1 ≥ (h.get (2 * h.pos + 1 + 1)).1
      · simp only [hk, if_true]
        exact key _ (by omega) (by omega)
      · simp only [hk, if_false, Nat.add_zero]
        exact key _ (by omega) (by omega)
    · have h1' : ¬ 2 * h.pos + 1 ≤ len - 2 := by omega
      simp only [h1, h1', if_false]
      by_cases h2 : 2 * h.pos + 1 + 1 = len
      · have h2' : 2 * h.pos + 1 = len - 1 := by omega
        rw [if_pos h2', if_pos h2]
        rw [moveTo_fill h (by omega) (by omega)]
        refine ⟨rfl, ?_⟩
        simp [Hole.moveTo, hl]
        omega
      · have h2' : ¬ 2 * h.pos + 1 = len - 1 := by omega
        rw [if_neg h2', if_neg h2]
        exact ⟨rfl, by omega⟩

theorem new_fill (d : List Entry) {i : Nat} (h : i < d.length) : (Hole.new d i).fill = d := by
  unfold Hole.new Hole.fill
  simp only
  refine List.ext_getElem? fun k => ?_
  by_cases hk : i = k
  · subst hk
    simp [at', h]
  · simp [hk]

theorem push_eq (h : List Entry) (e : Entry) : push h e = BinHeap.push h e := by
  unfold push BinHeap.push
  simp only
  rw [siftUp_fill _ _ (by simp [Hole.new]), new_fill _ (by simp)]
  rfl

theorem pop_eq (h : List Entry) : pop h = BinHeap.pop h := by
  unfold pop BinHeap.pop
  cases h.getLast? with
  | none => rfl
  | some item =>
    simp only
    cases h.dropLast with
    | nil => rfl
    | cons root tail =>
      simp only
      obtain ⟨h1, h2⟩ := siftToBottom_fill (item :: tail).length (item :: tail).length (Hole.new (item :: tail) 0) rfl (Nat.succ_pos _)
      rw [new_fill _ (by simp)] at h1
      rw [siftUp_fill _ _ (by simpa [Hole.new, Hole.fill] using h2), new_fill _ (by rw [fill_length]; exact h2)]
      rw [show BinHeap.siftToBottom (item :: tail).length (item :: tail) 0 = _ from h1.symm]
      rfl

theorem queue_eq : queue = BinHeap.queue := by
  unfold queue BinHeap.queue
  rw [show push = BinHeap.push from funext fun h => funext fun e => push_eq h e, show pop = BinHeap.pop from funext pop_eq]

end Seiren.HoleHeap
