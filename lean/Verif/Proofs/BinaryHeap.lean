import Verif.Model.BinaryHeap
import Mathlib.Data.List.Perm.Basic
/-! # std's binary heap is a priority queue -/

namespace Seiren.BinHeap

theorem length_swap (h : List Entry) (i j : Nat) : (swap h i j).length = h.length := by simp [swap]

theorem at'_swap (h : List Entry) (i j k : Nat) (hi : i < h.length) (hj : j < h.length) :
    at' (swap h i j) k = if k = j then at' h i else if k = i then at' h j else at' h k := by
  unfold at' swap
  simp only [List.getD_eq_getElem?_getD]
  rw [List.getElem?_set, List.length_set, List.getElem?_set]
  by_cases h1 : k = j
  · subst h1; simp [hj, at']
  · have h1' : ¬ j = k := fun h => h1 h.symm
    by_cases h2 : k = i
    · subst h2; simp [h1', h1, hi, at']
    · have h2' : ¬ i = k := fun h => h2 h.symm
      simp [h1, h2, h1', h2']

theorem perm_swap (h : List Entry) (i j : Nat) (hi : i < h.length) (hj : j < h.length) : (swap h i j).Perm h := by
  have hai : at' h i = h[i] := by simp [at', hi]
  have haj : at' h j = h[j] := by simp [at', hj]
  unfold swap
  rw [hai, haj]
  rw [List.perm_iff_count]
  intro a
  rw [List.count_set (by simpa using hj), List.count_set hi]
  rw [List.getElem_set]
  have hci : h[i] = a → 0 < h.count a := fun hh => List.count_pos_iff.mpr (hh ▸ List.getElem_mem hi)
  have hcj : h[j] = a → 0 < h.count a := fun hh => List.count_pos_iff.mpr (hh ▸ List.getElem_mem hj)
  by_cases hij : i = j
  · subst hij
    simp only [if_true, beq_iff_eq]
    split <;> rename_i h1
    · have := hci h1; omega
    · omega
  · simp only [hij, if_false, beq_iff_eq]
    by_cases h1 : h[i] = a <;> by_cases h2 : h[j] = a
    · have := hci h1; simp only [h1, h2, if_true]; omega
    · have := hci h1; simp only [h1, h2, if_true, if_false]; omega
    · have := hcj h2; simp only [h1, h2, if_true, if_false]; omega
    · simp only [h1, h2, if_false]; omega

/-- The score at a position. -/
def key (h : List Entry) (i : Nat) : Nat := (at' h i).1

theorem key_swap (h : List Entry) (i j k : Nat) (hi : i < h.length) (hj : j < h.length) :
    key (swap h i j) k = if k = j then key h i else if k = i then key h j else key h k := by
  unfold key
  rw [at'_swap h i j k hi hj]
  split
  · rfl
  · split <;> rfl

/-- No entry is smaller than its parent. -/
def IsHeap (h : List Entry) : Prop := ∀ i, 0 < i → i < h.length → key h ((i - 1) / 2) ≤ key h i

/-- A heap but for the entry at `pos`. -/
structure Good (h : List Entry) (pos : Nat) : Prop where
  rest : ∀ i, 0 < i → i < h.length → i ≠ pos → (i - 1) / 2 ≠ pos → key h ((i - 1) / 2) ≤ key h i
  grand : 0 < pos → ∀ i, 0 < i → i < h.length → (i - 1) / 2 = pos → key h ((pos - 1) / 2) ≤ key h i

theorem siftUp_spec (fuel : Nat) (h : List Entry) (pos : Nat) (hf : pos ≤ fuel) (hpos : pos < h.length) (hg : Good h pos)
    (hch : ∀ i, 0 < i → i < h.length → (i - 1) / 2 = pos → key h pos ≤ key h i) :
    IsHeap (siftUp fuel h pos) ∧ (siftUp fuel h pos).Perm h := by
  induction fuel generalizing h pos with
  | zero =>
    refine ⟨?_, List.Perm.refl _⟩
    have : pos = 0 := by omega
    subst this
    intro i h0 hi
    by_cases hp : (i - 1) / 2 = 0
    · rw [hp]; exact hch i h0 hi hp
    · exact hg.rest i h0 hi (by omega) hp
  | succ fuel ih =>
    unfold siftUp
    by_cases h0 : pos > 0
    · simp only [h0, if_true]
      by_cases hle : (at' h pos).1 ≥ (at' h ((pos - 1) / 2)).1
      · rw [if_pos hle]
        refine ⟨?_, List.Perm.refl _⟩
        intro i hi0 hi
        by_cases hip : i = pos
        · subst hip; exact hle
        · by_cases hp : (i - 1) / 2 = pos
          · rw [hp]; exact hch i hi0 hi hp
          · exact hg.rest i hi0 hi hip hp
      · rw [if_neg hle]
        have hlt : key h pos < key h ((pos - 1) / 2) := by simpa [key] using hle
        have hq : (pos - 1) / 2 < h.length := by omega
        have hne : (pos - 1) / 2 ≠ pos := by omega
        have hk := fun k => key_swap h pos ((pos - 1) / 2) k hpos hq
        have hl := length_swap h pos ((pos - 1) / 2)
        have := ih (swap h pos ((pos - 1) / 2)) ((pos - 1) / 2) (by omega) (by omega) ?_ ?_
        · exact ⟨this.1, this.2.trans (perm_swap h _ _ hpos hq)⟩
        · constructor
          · intro i hi0 hi hne1 hne2
            rw [hl] at hi
            rw [hk, hk]
            simp only [hne1, hne2, if_false]
            by_cases hip : i = pos
            · exact absurd (by rw [hip]) hne2
            · by_cases hp : (i - 1) / 2 = pos
              · simp only [hip, hp, if_true, if_false]
                exact hg.grand h0 i hi0 hi hp
              · simp only [hip, hp, if_false]
                exact hg.rest i hi0 hi hip hp
          · intro hq0 i hi0 hi hpar
            rw [hl] at hi
            rw [hk, hk]
            have e1 : ((pos - 1) / 2 - 1) / 2 ≠ (pos - 1) / 2 := by omega
            have e2 : ((pos - 1) / 2 - 1) / 2 ≠ pos := by omega
            have e3 : i ≠ (pos - 1) / 2 := by omega
            have hqq := hg.rest ((pos - 1) / 2) hq0 hq hne e2
            simp only [e1, e2, e3, if_false]
            by_cases hip : i = pos
            · simp only [hip, if_true]; exact hqq
            · simp only [hip, if_false]
              have := hg.rest i hi0 hi hip (by omega)
              rw [hpar] at this
              omega
        · intro i hi0 hi hpar
          rw [hl] at hi
          rw [hk, hk]
          have e3 : i ≠ (pos - 1) / 2 := by omega
          simp only [e3, if_true, if_false]
          by_cases hip : i = pos
          · simp only [hip, if_true]; omega
          · simp only [hip, if_false]
            have := hg.rest i hi0 hi hip (by omega)
            rw [hpar] at this
            omega
    · rw [if_neg h0]
      refine ⟨?_, List.Perm.refl _⟩
      have : pos = 0 := by omega
      subst this
      intro i h0 hi
      by_cases hp : (i - 1) / 2 = 0
      · rw [hp]; exact hch i h0 hi hp
      · exact hg.rest i h0 hi (by omega) hp

theorem good_down (h : List Entry) (pos c : Nat) (hc : c < h.length) (hcp : (c - 1) / 2 = pos) (hc0 : 0 < c) (hg : Good h pos)
    (hmin : ∀ i, 0 < i → i < h.length → (i - 1) / 2 = pos → key h c ≤ key h i) : Good (swap h pos c) c := by
  have hpos : pos < h.length := by omega
  have hk := fun k => key_swap h pos c k hpos hc
  have hl := length_swap h pos c
  have hne : pos ≠ c := by omega
  constructor
  · intro i hi0 hi hne1 hne2
    rw [hl] at hi
    rw [hk, hk]
    simp only [hne1, hne2, if_false]
    by_cases hip : i = pos
    · have hp : (i - 1) / 2 ≠ pos := by omega
      simp only [hip, if_true]
      have hp' : (pos - 1) / 2 ≠ pos := by omega
      simp only [hp', if_false]
      exact hg.grand (by omega) c hc0 hc hcp
    · by_cases hp : (i - 1) / 2 = pos
      · simp only [hip, hp, if_true, if_false]
        exact hmin i hi0 hi hp
      · simp only [hip, hp, if_false]
        exact hg.rest i hi0 hi hip hp
  · intro _ i hi0 hi hpar
    rw [hl] at hi
    rw [hk, hk, hcp]
    have e1 : i ≠ c := by omega
    have e2 : i ≠ pos := by omega
    simp only [hne, e1, e2, if_true, if_false]
    have := hg.rest i hi0 hi e2 (by omega)
    rw [hpar] at this
    exact this

theorem siftToBottom_spec (fuel : Nat) (h : List Entry) (pos : Nat) (hf : h.length ≤ fuel + pos) (hpos : pos < h.length)
    (hg : Good h pos) :
    (siftToBottom fuel h pos).1.Perm h ∧ (siftToBottom fuel h pos).2 < h.length ∧
      h.length ≤ 2 * (siftToBottom fuel h pos).2 + 1 ∧ Good (siftToBottom fuel h pos).1 (siftToBottom fuel h pos).2 := by
  induction fuel generalizing h pos with
  | zero => omega
  | succ fuel ih =>
    unfold siftToBottom
    simp only
    by_cases h1 : 2 * pos + 1 + 1 < h.length
    · simp only [h1, if_true]
      set c := if (at' h (2 * pos + 1)).1 ≥ (at' h (2 * pos + 1 + 1)).1 then 2 * pos + 1 + 1 else 2 * pos + 1 with hc
      have hcc : (c = 2 * pos + 1 ∨ c = 2 * pos + 1 + 1) ∧ key h c ≤ key h (2 * pos + 1) ∧
          key h c ≤ key h (2 * pos + 1 + 1) := by
        unfold key
        rw [hc]
        split
        · exact ⟨Or.inr rfl, by omega, by omega⟩
        · exact ⟨Or.inl rfl, by omega, by omega⟩
      have hlt : c < h.length := by omega
      have hgood := good_down h pos c hlt (by omega) (by omega) hg (by
        intro i hi0 hi hp
        have : i = 2 * pos + 1 ∨ i = 2 * pos + 1 + 1 := by omega
        rcases this with rfl | rfl
        · exact hcc.2.1
        · exact hcc.2.2)
      have hl := length_swap h pos c
      have := ih (swap h pos c) c (by omega) (by omega) hgood
      rw [hl] at this
      exact ⟨this.1.trans (perm_swap h _ _ hpos hlt), this.2⟩
    · simp only [h1, if_false]
      by_cases h2 : 2 * pos + 1 + 1 = h.length
      · simp only [h2, if_true]
        have hlt : 2 * pos + 1 < h.length := by omega
        refine ⟨perm_swap h _ _ hpos hlt, hlt, by omega, ?_⟩
        refine good_down h pos _ hlt (by omega) (by omega) hg ?_
        intro i hi0 hi hp
        have : i = 2 * pos + 1 := by omega
        rw [this]
      · simp only [h2, if_false]
        exact ⟨List.Perm.refl _, hpos, by omega, hg⟩

theorem push_spec (h : List Entry) (e : Entry) (hh : IsHeap h) : IsHeap (push h e) ∧ (push h e).Perm (e :: h) := by
  unfold push
  have hkey : ∀ i, i < h.length → key (h ++ [e]) i = key h i := by
    intro i hi
    simp [key, at', List.getElem?_append_left hi]
  have hspec := siftUp_spec h.length (h ++ [e]) h.length (Nat.le_refl _) (by simp) ?_ ?_
  · exact ⟨hspec.1, hspec.2.trans (List.perm_append_singleton e h)⟩
  · constructor
    · intro i h0 hi hne _
      simp only [List.length_append, List.length_cons, List.length_nil] at hi
      rw [hkey _ (by omega), hkey _ (by omega)]
      exact hh i h0 (by omega)
    · intro h0 i hi0 hi hp
      simp only [List.length_append, List.length_cons, List.length_nil] at hi
      omega
  · intro i hi0 hi hp
    simp only [List.length_append, List.length_cons, List.length_nil] at hi
    omega

theorem root_min (h : List Entry) (hh : IsHeap h) (i : Nat) (hi : i < h.length) : key h 0 ≤ key h i := by
  induction i using Nat.strongRecOn with
  | ind i ih =>
    by_cases h0 : i = 0
    · rw [h0]
    · exact Nat.le_trans (ih ((i - 1) / 2) (by omega) (by omega)) (hh i (by omega) hi)

theorem pop_spec (h : List Entry) (hh : IsHeap h) (hne : h ≠ []) :
    ∃ e h', pop h = some (e, h') ∧ IsHeap h' ∧ h.Perm (e :: h') ∧ ∀ x ∈ h, e.1 ≤ x.1 := by
  have hlast := List.dropLast_concat_getLast hne
  have hminh : ∀ x ∈ h, key h 0 ≤ x.1 := by
    intro x hx
    obtain ⟨i, hi, hix⟩ := List.mem_iff_getElem.mp hx
    have := root_min h hh i hi
    have hk : key h i = x.1 := by simp [key, at', hi, hix]
    rw [← hk]; exact this
  unfold pop
  rw [List.getLast?_eq_some_getLast hne]
  simp only
  cases hd : h.dropLast with
  | nil =>
    rw [hd] at hlast
    refine ⟨_, _, rfl, ?_, ?_, ?_⟩
    · intro i _ hi; simp at hi
    · conv_lhs => rw [← hlast]
      simp
    · intro x hx
      rw [← hlast] at hx
      simp at hx
      rw [hx]
  | cons root tail =>
    rw [hd] at hlast
    set last := h.getLast hne with hl
    have hlen : h.length = (last :: tail).length + 1 := by rw [← hlast]; simp
    have hkey : ∀ i, 0 < i → i < (last :: tail).length → key (last :: tail) i = key h i := by
      intro i h0 hi
      rw [← hlast]
      obtain ⟨k, rfl⟩ : ∃ k, i = k + 1 := ⟨i - 1, by omega⟩
      simp only [List.length_cons] at hi
      simp [key, at', List.getElem?_append_left (show k < tail.length by omega)]
    have hroot : key h 0 = root.1 := by rw [← hlast]; simp [key, at']
    have hgood : Good (last :: tail) 0 := by
      constructor
      · intro i h0 hi hne' hp
        rw [hkey _ (by omega) (by omega), hkey _ h0 hi]
        exact hh i h0 (by omega)
      · intro h0; omega
    have hs := siftToBottom_spec (last :: tail).length (last :: tail) 0 (by omega) (by simp) hgood
    have hperm := hs.1
    have hu := siftUp_spec (siftToBottom (last :: tail).length (last :: tail) 0).2
      (siftToBottom (last :: tail).length (last :: tail) 0).1 (siftToBottom (last :: tail).length (last :: tail) 0).2
      (Nat.le_refl _) (by rw [hperm.length_eq]; exact hs.2.1) hs.2.2.2 (by
        intro i hi0 hi hp
        rw [hperm.length_eq] at hi
        omega)
    refine ⟨root, _, rfl, hu.1, ?_, ?_⟩
    · have h1 : h.Perm (root :: (last :: tail)) := by
        conv_lhs => rw [← hlast]
        exact (List.Perm.cons root (List.perm_append_singleton last tail))
      exact h1.trans (List.Perm.cons root (hu.2.trans hperm).symm)
    · intro x hx
      rw [← hroot]
      exact hminh x hx

/-- std's heap satisfies what the search relies on. -/
theorem lawful : queue.Lawful IsHeap where
  inv_nil := by intro i _ hi; simp at hi
  inv_push := fun h e hh => (push_spec h e hh).1
  inv_pop := by
    intro h e h' hh hp
    have hne : h ≠ [] := by rintro rfl; simp [queue, pop] at hp
    obtain ⟨e2, h2, he, h3, -⟩ := pop_spec h hh hne
    simp only [queue] at hp
    rw [hp] at he
    cases he
    exact h3
  push_perm := fun h e hh => (push_spec h e hh).2
  pop_nil := rfl
  pop_some := by
    intro h hh hne
    obtain ⟨e2, h2, he, -⟩ := pop_spec h hh hne
    exact ⟨e2, h2, he⟩
  pop_perm := by
    intro h e h' hh hp
    have hne : h ≠ [] := by rintro rfl; simp [queue, pop] at hp
    obtain ⟨e2, h2, he, -, h3, -⟩ := pop_spec h hh hne
    simp only [queue] at hp
    rw [hp] at he
    cases he
    exact h3
  pop_min := by
    intro h e h' hh hp
    have hne : h ≠ [] := by rintro rfl; simp [queue, pop] at hp
    obtain ⟨e2, h2, he, -, -, h3⟩ := pop_spec h hh hne
    simp only [queue] at hp
    rw [hp] at he
    cases he
    exact h3

end Seiren.BinHeap
