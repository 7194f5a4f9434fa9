import Verif.Model.HashTable
import Mathlib.Data.Nat.ModEq
import Mathlib.Data.Nat.Prime.Basic
import Mathlib.Data.Fintype.EquivFin
import Mathlib.Data.Fintype.Card
import Mathlib.Algebra.Order.Ring.Nat
import Mathlib.Tactic.Ring
import Mathlib.Tactic.Linarith
/-! # std's hash table is a map, whatever the hash function -/

namespace Seiren.Hb

/-! ## Probing visits every group -/

/-- The triangular numbers. -/
def tri : Nat → Nat
  | 0 => 0
  | s + 1 => tri s + (s + 1)

theorem two_tri (s : Nat) : 2 * tri s = s * (s + 1) := by
  induction s with
  | zero => rfl
  | succ s ih => rw [tri, Nat.mul_add, ih]; ring

theorem tri_inj_lt {m i j : Nat} (hj : i < j) (hjm : j < 2 ^ m) (h : tri i % 2 ^ m = tri j % 2 ^ m) : False := by
  have hmono : tri i ≤ tri j := by
    have h1 := two_tri i
    have h2 := two_tri j
    nlinarith
  have hd : 2 ^ m ∣ tri j - tri i := (Nat.modEq_iff_dvd' hmono).mp h
  obtain ⟨c, hc⟩ := hd
  have e : (j - i) * (j + i + 1) = 2 ^ (m + 1) * c := by
    have h1 := two_tri i
    have h2 := two_tri j
    obtain ⟨d, rfl⟩ := Nat.exists_eq_add_of_lt hj
    have h3 : i + d + 1 - i = d + 1 := by omega
    have h4 : tri (i + d + 1) = tri i + 2 ^ m * c := by omega
    rw [h3, pow_succ]
    rw [h4] at h2
    nlinarith
  have hcop : Nat.Coprime (2 ^ (m + 1)) (j - i) ∨ Nat.Coprime (2 ^ (m + 1)) (j + i + 1) := by
    rcases Nat.even_or_odd (j - i) with he | ho
    · refine .inr (Nat.Coprime.pow_left _ (Nat.coprime_two_left.mpr ?_))
      obtain ⟨a, ha⟩ := he
      exact ⟨a + i, by omega⟩
    · exact .inl (Nat.Coprime.pow_left _ ((Nat.coprime_two_left).mpr ho))
  have hdvd : 2 ^ (m + 1) ∣ (j - i) * (j + i + 1) := ⟨c, e⟩
  have hp : 2 ^ (m + 1) = 2 * 2 ^ m := by ring
  rcases hcop with h1 | h1
  · have := Nat.le_of_dvd (by omega) (h1.dvd_of_dvd_mul_left hdvd)
    omega
  · have := Nat.le_of_dvd (by omega) (h1.dvd_of_dvd_mul_right hdvd)
    omega

/-- Every residue is that of a triangular number. -/
theorem tri_surj (m a : Nat) (ha : a < 2 ^ m) : ∃ s, s < 2 ^ m ∧ tri s % 2 ^ m = a := by
  have hpos : 0 < 2 ^ m := Nat.pos_of_ne_zero (by positivity)
  let f : Fin (2 ^ m) → Fin (2 ^ m) := fun s => ⟨tri s.1 % 2 ^ m, Nat.mod_lt _ hpos⟩
  have hinj : Function.Injective f := by
    intro i j h
    have h' : tri i.1 % 2 ^ m = tri j.1 % 2 ^ m := congrArg Fin.val h
    rcases Nat.lt_trichotomy i.1 j.1 with hl | he | hl
    · exact (tri_inj_lt hl j.2 h').elim
    · exact Fin.ext he
    · exact (tri_inj_lt hl i.2 h'.symm).elim
  obtain ⟨s, hs⟩ := Finite.surjective_of_injective hinj ⟨a, ha⟩
  exact ⟨s.1, s.2, congrArg Fin.val hs⟩

/-- Where probing looks in its round `s`. -/
def probe (W n h s : Nat) : Nat := (h + W * tri s) % n

theorem probe_zero (W n h : Nat) : probe W n h 0 = h % n := by simp [probe, tri]

theorem probe_succ (W n h s : Nat) : (probe W n h s + (W * s + W)) % n = probe W n h (s + 1) := by
  rw [probe, probe, Nat.mod_add_mod, tri]
  congr 1
  ring

/-- The group at `pos` has a control byte for the bucket `i`. -/
def Covers (W n pos i : Nat) : Prop := ∃ b, b < W ∧ (pos + b) % n = i ∧ ¬ (n ≤ pos + b ∧ pos + b < W)

/-- Every bucket is seen within `n` rounds. -/
theorem covered {e k : Nat} (h i : Nat) (hi : i < 2 ^ k) : ∃ s, s < 2 ^ k ∧ Covers (2 ^ e) (2 ^ k) (probe (2 ^ e) (2 ^ k) h s) i := by
  have hn : 0 < 2 ^ k := Nat.pos_of_ne_zero (by positivity)
  have hw : 0 < 2 ^ e := Nat.pos_of_ne_zero (by positivity)
  rcases Nat.lt_or_ge k e with hke | hke
  · refine ⟨0, hn, ?_⟩
    rw [probe_zero]
    have hp : h % 2 ^ k < 2 ^ k := Nat.mod_lt _ hn
    have hlt : 2 ^ k < 2 ^ e := Nat.pow_lt_pow_right (by norm_num) hke
    generalize h % 2 ^ k = pos at hp
    rcases Nat.lt_or_ge i pos with hip | hip
    · refine ⟨2 ^ e + i - pos, by omega, ?_, by omega⟩
      rw [show pos + (2 ^ e + i - pos) = 2 ^ e + i by omega]
      obtain ⟨d, rfl⟩ := Nat.exists_eq_add_of_lt hke
      rw [show 2 ^ (k + d + 1) + i = i + 2 ^ k * 2 ^ (d + 1) by ring, Nat.add_mul_mod_self_left, Nat.mod_eq_of_lt hi]
    · exact ⟨i - pos, by omega, by rw [show pos + (i - pos) = i by omega, Nat.mod_eq_of_lt hi], by omega⟩
  · obtain ⟨m, rfl⟩ := Nat.exists_eq_add_of_le hke
    have hle : 2 ^ e ≤ 2 ^ (e + m) := Nat.pow_le_pow_right (by norm_num) hke
    -- the distance of the bucket from the start
    let r := (i + (2 ^ (e + m) - h % 2 ^ (e + m))) % 2 ^ (e + m)
    have hr : r < 2 ^ (e + m) := Nat.mod_lt _ hn
    have hri : (h + r) % 2 ^ (e + m) = i := by
      have hp : h % 2 ^ (e + m) < 2 ^ (e + m) := Nat.mod_lt _ hn
      rw [← Nat.mod_add_mod, Nat.add_mod_mod]
      rw [show h % 2 ^ (e + m) + (i + (2 ^ (e + m) - h % 2 ^ (e + m))) = i + 2 ^ (e + m) by omega, Nat.add_mod_right, Nat.mod_eq_of_lt hi]
    have ha : r / 2 ^ e < 2 ^ m := by
      rw [Nat.div_lt_iff_lt_mul hw, ← pow_add, Nat.add_comm m e]; exact hr
    obtain ⟨s, hs, hts⟩ := tri_surj m _ ha
    refine ⟨s, hs.trans_le (Nat.pow_le_pow_right (by norm_num) (by omega)), r % 2 ^ e, Nat.mod_lt _ hw, ?_, by omega⟩
    rw [probe, Nat.mod_add_mod]
    have h1 : 2 ^ e * tri s ≡ 2 ^ e * (r / 2 ^ e) [MOD 2 ^ (e + m)] := by
      rw [pow_add]
      refine Nat.ModEq.mul_left' _ ?_
      rw [Nat.ModEq, hts, Nat.mod_eq_of_lt ha]
    have h2 : h + 2 ^ e * tri s + r % 2 ^ e ≡ h + 2 ^ e * (r / 2 ^ e) + r % 2 ^ e [MOD 2 ^ (e + m)] :=
      (h1.add_left h).add_right _
    rw [Nat.add_assoc h (2 ^ e * (r / 2 ^ e)), Nat.div_add_mod] at h2
    exact Eq.trans h2 hri

/-! ## Control bytes -/

section
variable {K V : Type} {W : Nat} {t : Table K V}

theorem ctrl_covers {pos b : Nat} (h : ¬ (t.length ≤ pos + b ∧ pos + b < W)) : ctrl W t (pos + b) = (t[(pos + b) % t.length]?).join := by
  rw [ctrl, if_neg h]

theorem ctrl_some {j : Nat} {kv : K × V} (h : ctrl W t j = some kv) : t[j % t.length]? = some (some kv) ∧ ¬ (t.length ≤ j ∧ j < W) := by
  unfold ctrl at h
  split at h
  · cases h
  · next hn => exact ⟨by simpa [Option.join_eq_some_iff] using h, hn⟩

/-- All control bytes of the group are those of full buckets. -/
def Full (W : Nat) (t : Table K V) (pos : Nat) : Prop := ∀ b, b < W → (ctrl W t (pos + b)).isSome

/-- Probing for the hash `h` comes to bucket `i`: the groups before have no empty bucket. -/
def Reach (W : Nat) (t : Table K V) (h i : Nat) : Prop :=
  ∃ s, Covers W t.length (probe W t.length h s) i ∧ ∀ s' < s, Full W t (probe W t.length h s')

/-- What holds for all tables that arise. -/
structure Good (H : K → Nat) (W : Nat) (t : Table K V) : Prop where
  size : ∃ k, t.length = 2 ^ k ∧ (k = 0 ∨ 2 ≤ k)
  room : items t ≤ capacity t.length
  reach : ∀ (i : Nat) (kv : K × V), t[i]? = some (some kv) → Reach W t (H kv.1) i
  uniq : ∀ (i j : Nat) (kv kv' : K × V), t[i]? = some (some kv) → t[j]? = some (some kv') → kv.1 = kv'.1 → i = j

theorem capacity_lt {n : Nat} (hn : 0 < n) : capacity n < n := by
  unfold capacity
  split <;> omega

theorem items_set {i : Nat} {kv : K × V} (h : t[i]? = some none) : items (t.set i (some kv)) = items t + 1 := by
  unfold items
  obtain ⟨hi, he⟩ := List.getElem?_eq_some_iff.mp h
  rw [List.countP_set hi, he]
  simp

theorem items_replace {i : Nat} {kv kv' : K × V} (h : t[i]? = some (some kv)) : items (t.set i (some kv')) = items t := by
  unfold items
  obtain ⟨hi, he⟩ := List.getElem?_eq_some_iff.mp h
  rw [List.countP_set hi, he]
  have : 0 < t.countP Option.isSome := by
    rw [List.countP_pos_iff]
    exact ⟨some kv, he ▸ List.getElem_mem hi, rfl⟩
  simp
  omega

theorem exists_empty (h : items t < t.length) : ∃ i : Nat, t[i]? = some none := by
  by_contra hc
  have : t.countP Option.isSome = t.length := by
    rw [List.countP_eq_length]
    intro o ho
    obtain ⟨i, hi, rfl⟩ := List.mem_iff_getElem.mp ho
    cases hx : t[i] with
    | some kv => rfl
    | none => exact (hc ⟨i, by rw [List.getElem?_eq_getElem hi, hx]⟩).elim
  unfold items at h
  omega

theorem full_set {pos i : Nat} {kv : K × V} (h : Full W t pos) : Full W (t.set i (some kv)) pos := by
  intro b hb
  have := h b hb
  unfold ctrl at this ⊢
  rw [List.length_set]
  split at this
  · cases this
  · next hn =>
    rw [if_neg hn, List.getElem?_set]
    split
    · split
      · rfl
      · next heq hlt =>
        rw [heq] at hlt
        rw [List.getElem?_eq_none (by omega)] at this
        exact this
    · exact this

theorem reach_set {h i j : Nat} {kv : K × V} (hr : Reach W t h i) : Reach W (t.set j (some kv)) h i := by
  obtain ⟨s, h1, h2⟩ := hr
  unfold Reach
  rw [List.length_set]
  exact ⟨s, h1, fun s' hs' => full_set (h2 s' hs')⟩

/-! ## Slots -/

/-- In a table smaller than a group the first group has all buckets. -/
theorem covers_small {n pos i : Nat} (hd : n ∣ W) (hlt : n < W) (hp : pos < n) (hi : i < n) : Covers W n pos i := by
  rcases Nat.lt_or_ge i pos with hip | hip
  · refine ⟨W + i - pos, by omega, ?_, by omega⟩
    rw [show pos + (W + i - pos) = W + i by omega]
    obtain ⟨c, rfl⟩ := hd
    rw [Nat.mul_add_mod, Nat.mod_eq_of_lt hi]
  · exact ⟨i - pos, by omega, by rw [show pos + (i - pos) = i by omega, Nat.mod_eq_of_lt hi], by omega⟩

theorem reach_small {e k h i : Nat} (hk : t.length = 2 ^ k) (hlt : t.length < 2 ^ e) (hi : i < t.length) : Reach (2 ^ e) t h i := by
  refine ⟨0, ?_, by simp⟩
  rw [probe_zero]
  refine covers_small ?_ hlt (Nat.mod_lt _ (by omega)) hi
  rw [hk] at hlt ⊢
  exact Nat.pow_dvd_pow _ ((Nat.pow_lt_pow_iff_right (by norm_num)).mp hlt).le

/-- Not all groups are full. -/
theorem not_all_full {e k h : Nat} (hk : t.length = 2 ^ k) {i : Nat} (hi : t[i]? = some none) :
    ∃ s < t.length, ¬ Full (2 ^ e) t (probe (2 ^ e) t.length h s) := by
  obtain ⟨hlt, _⟩ := List.getElem?_eq_some_iff.mp hi
  rw [hk] at hlt
  obtain ⟨s, hs, b, hb, hbi, hne⟩ := covered (e := e) h i hlt
  refine ⟨s, by omega, fun hf => ?_⟩
  rw [hk] at hf
  have := hf b hb
  rw [ctrl_covers (by rw [hk]; exact hne), hk, hbi, hi] at this
  cases this

theorem slotLoop_spec {e k h : Nat} (hk : t.length = 2 ^ k) {j : Nat} (hj : t[j]? = some none) :
    ∀ fuel s, s + fuel = t.length + 1 → (∀ s' < s, Full (2 ^ e) t (probe (2 ^ e) t.length h s')) →
      ∃ i, slotLoop (2 ^ e) t fuel (probe (2 ^ e) t.length h s) (2 ^ e * s) = some i ∧ t[i]? = some none ∧ Reach (2 ^ e) t h i
  | 0, s, hs, hf => by
    obtain ⟨s', h1, h2⟩ := not_all_full (e := e) (h := h) hk hj
    exact (h2 (hf s' (by omega))).elim
  | fuel + 1, s, hs, hf => by
    have hpos : 0 < t.length := by rw [hk]; positivity
    rw [slotLoop]
    cases hc : (List.range (2 ^ e)).find? (fun i => (ctrl (2 ^ e) t (probe (2 ^ e) t.length h s + i)).isNone) with
    | none =>
      simp only [probe_succ]
      rw [show 2 ^ e * s + 2 ^ e = 2 ^ e * (s + 1) by ring]
      refine slotLoop_spec hk hj fuel (s + 1) (by omega) ?_
      intro s' hs'
      rcases Nat.lt_succ_iff_lt_or_eq.mp hs' with h1 | rfl
      · exact hf s' h1
      · intro b hb
        have := List.find?_eq_none.mp hc b (List.mem_range.mpr hb)
        simpa [Option.isSome_iff_ne_none] using this
    | some i =>
      have h1 := List.find?_some hc
      have h2 := List.mem_range.mp (List.mem_of_find?_eq_some hc)
      simp only
      generalize hp : probe (2 ^ e) t.length h s = pos at h1
      have hr : (pos + i) % t.length < t.length := Nat.mod_lt _ hpos
      split
      · next hsome =>
        have hsm : t.length ≤ pos + i ∧ pos + i < 2 ^ e := by
          by_contra hne
          rw [ctrl_covers hne] at h1
          rw [Option.isNone_iff_eq_none] at h1
          rw [h1] at hsome
          cases hsome
        have hlt : t.length < 2 ^ e := by omega
        obtain ⟨hjl, _⟩ := List.getElem?_eq_some_iff.mp hj
        have hctrl : ∀ a, a < t.length → ctrl (2 ^ e) t a = (t[a]?).join := fun a ha => by
          rw [ctrl, if_neg (by omega), Nat.mod_eq_of_lt ha]
        have hex : ((List.range (2 ^ e)).find? fun i => (ctrl (2 ^ e) t i).isNone).isSome := by
          rw [List.find?_isSome]
          refine ⟨j, List.mem_range.mpr (by omega), ?_⟩
          rw [hctrl j hjl, hj]; rfl
        obtain ⟨a, ha⟩ := Option.isSome_iff_exists.mp hex
        have hal : a ≤ j := by
          by_contra hgt
          obtain ⟨_, as, bs, hsplit, hno⟩ := List.find?_eq_some_iff_append.mp ha
          have hja : j ∈ as := by
            have hlen : as.length = a := by
              have := congrArg (fun l => l[as.length]?) hsplit
              have hl2 := congrArg List.length hsplit
              simp at this hl2
              rw [List.getElem?_range (by omega)] at this
              simpa using this
            have := congrArg (fun l => l[j]?) hsplit
            rw [List.getElem?_range (by omega), List.getElem?_append_left (by omega)] at this
            exact List.mem_of_getElem? this.symm
          have := hno j hja
          rw [hctrl j hjl, hj] at this
          simp at this
        have hav := List.find?_some ha
        rw [hctrl a (by omega)] at hav
        refine ⟨a, ha, ?_, reach_small hk hlt (by omega)⟩
        rw [List.getElem?_eq_getElem (by omega)] at hav ⊢
        cases hx : t[a] with
        | none => rfl
        | some kv => rw [hx] at hav; cases hav
      · next hnone =>
        refine ⟨_, rfl, ?_, ?_⟩
        · rw [List.getElem?_eq_getElem hr] at hnone ⊢
          cases hx : t[(pos + i) % t.length] with
          | none => rfl
          | some kv => rw [hx] at hnone; exact (hnone rfl).elim
        · by_cases hsm : t.length ≤ pos + i ∧ pos + i < 2 ^ e
          · exact reach_small hk (by omega) hr
          · exact ⟨s, by rw [hp]; exact ⟨i, h2, rfl, hsm⟩, hf⟩

theorem slot_spec {e k : Nat} (h : Nat) (hk : t.length = 2 ^ k) {j : Nat} (hj : t[j]? = some none) :
    ∃ i, slot (2 ^ e) t h = some i ∧ t[i]? = some none ∧ Reach (2 ^ e) t h i := by
  have := slotLoop_spec (e := e) (h := h) hk hj (t.length + 1) 0 (by omega) (by simp)
  rw [probe_zero, Nat.mul_zero] at this
  exact this

/-! ## Finding -/

variable [DecidableEq K] {H : K → Nat}

theorem findLoop_spec {e : Nat} (hg : Good H (2 ^ e) t) (key : K) :
    ∀ fuel s, s + fuel = t.length + 1 →
      (∀ s' < s, Full (2 ^ e) t (probe (2 ^ e) t.length (H key) s')) →
      (∀ s' < s, ∀ b < 2 ^ e, ∀ kv, ctrl (2 ^ e) t (probe (2 ^ e) t.length (H key) s' + b) = some kv → kv.1 ≠ key) →
      (∃ i v, findLoop H (2 ^ e) t key fuel (probe (2 ^ e) t.length (H key) s) (2 ^ e * s) = some (some i) ∧ t[i]? = some (some (key, v))) ∨
        (findLoop H (2 ^ e) t key fuel (probe (2 ^ e) t.length (H key) s) (2 ^ e * s) = some none ∧ ∀ v, some (key, v) ∉ t)
  | 0, s, hs, hf, _ => by
    obtain ⟨k, hk, _⟩ := hg.size
    have hroom := hg.room
    have hcap := capacity_lt (n := t.length) (by rw [hk]; positivity)
    obtain ⟨j, hj⟩ := exists_empty (t := t) (by omega)
    obtain ⟨s', h1, h2⟩ := not_all_full (e := e) (h := H key) hk hj
    exact (h2 (hf s' (by omega))).elim
  | fuel + 1, s, hs, hf, hno => by
    rw [findLoop]
    split
    · next i hc =>
      left
      have h1 := List.find?_some hc
      generalize probe (2 ^ e) t.length (H key) s = pos at h1
      cases hx : ctrl (2 ^ e) t (pos + i) with
      | none => rw [hx] at h1; cases h1
      | some kv =>
        rw [hx] at h1
        simp only [Bool.and_eq_true, decide_eq_true_eq] at h1
        refine ⟨_, kv.2, rfl, ?_⟩
        rw [(ctrl_some hx).1, ← h1.2]
    · next hc =>
      have hkey : ∀ b < 2 ^ e, ∀ kv, ctrl (2 ^ e) t (probe (2 ^ e) t.length (H key) s + b) = some kv → kv.1 ≠ key := by
        intro b hb kv hkv he
        have := List.find?_eq_none.mp hc b (List.mem_range.mpr hb)
        simp [hkv, he] at this
      have hno' : ∀ s' < s + 1, ∀ b < 2 ^ e, ∀ kv, ctrl (2 ^ e) t (probe (2 ^ e) t.length (H key) s' + b) = some kv → kv.1 ≠ key := by
        intro s' hs'
        rcases Nat.lt_succ_iff_lt_or_eq.mp hs' with h1 | rfl
        · exact hno s' h1
        · exact hkey
      split
      · next hany =>
        right
        refine ⟨rfl, fun v hv => ?_⟩
        obtain ⟨i, hi⟩ := List.mem_iff_getElem?.mp hv
        obtain ⟨s', ⟨b, hb, hbi, hne⟩, hfull⟩ := hg.reach i _ hi
        have hle : s' < s + 1 := by
          by_contra hgt
          obtain ⟨a, ha, han⟩ := List.any_eq_true.mp hany
          have := hfull s (by omega) a (List.mem_range.mp ha)
          rw [Option.isNone_iff_eq_none] at han
          rw [han] at this
          cases this
        refine hno' s' hle b hb (key, v) ?_ rfl
        rw [ctrl_covers hne, hbi, hi]
        rfl
      · next hany =>
        rw [probe_succ, show 2 ^ e * s + 2 ^ e = 2 ^ e * (s + 1) by ring]
        refine findLoop_spec hg key fuel (s + 1) (by omega) ?_ hno'
        intro s' hs'
        rcases Nat.lt_succ_iff_lt_or_eq.mp hs' with h1 | rfl
        · exact hf s' h1
        · intro b hb
          by_contra hx
          refine hany (List.any_eq_true.mpr ⟨b, List.mem_range.mpr hb, ?_⟩)
          simpa using hx

theorem find_spec {e : Nat} (hg : Good H (2 ^ e) t) (key : K) :
    (∃ i v, find H (2 ^ e) t key = some (some i) ∧ t[i]? = some (some (key, v))) ∨
      (find H (2 ^ e) t key = some none ∧ ∀ v, some (key, v) ∉ t) := by
  have := findLoop_spec hg key (t.length + 1) 0 (by omega) (by simp) (by simp)
  rw [probe_zero, Nat.mul_zero] at this
  exact this

/-- `get` finds what is stored. -/
theorem get_iff {e : Nat} (hg : Good H (2 ^ e) t) (key : K) (v : V) : get H (2 ^ e) t key = some v ↔ some (key, v) ∈ t := by
  unfold get
  rcases find_spec hg key with ⟨i, w, h1, h2⟩ | ⟨h1, h2⟩
  · rw [h1]
    simp only [h2, Option.join, Option.bind_some, id, Option.map_some, Option.some.injEq]
    constructor
    · rintro rfl
      exact List.mem_of_getElem? h2
    · intro hv
      obtain ⟨j, hj⟩ := List.mem_iff_getElem?.mp hv
      have := hg.uniq i j _ _ h2 hj rfl
      subst this
      rw [h2] at hj
      simpa using hj
  · rw [h1]
    simp only [reduceCtorEq, false_iff]
    exact h2 v

/-! ## Inserting -/

omit [DecidableEq K] in
theorem Good.empty {e : Nat} (hg : Good H (2 ^ e) t) : ∃ j : Nat, t[j]? = some none := by
  obtain ⟨k, hk, _⟩ := hg.size
  have hroom := hg.room
  have hcap := capacity_lt (n := t.length) (by rw [hk]; positivity)
  exact exists_empty (t := t) (by omega)

omit [DecidableEq K] in
/-- Placing a new key. -/
theorem place_spec {e : Nat} (hg : Good H (2 ^ e) t) {kv : K × V} (hnew : ∀ kv', some kv' ∈ t → kv'.1 ≠ kv.1) (hroom : items t + 1 ≤ capacity t.length) :
    Good H (2 ^ e) (place H (2 ^ e) t kv) ∧ (place H (2 ^ e) t kv).length = t.length ∧ items (place H (2 ^ e) t kv) = items t + 1 ∧
      ∀ x, some x ∈ place H (2 ^ e) t kv ↔ some x ∈ t ∨ x = kv := by
  obtain ⟨k, hk, hk2⟩ := hg.size
  obtain ⟨j, hj⟩ := hg.empty
  obtain ⟨i, h1, h2, h3⟩ := slot_spec (e := e) (H kv.1) hk hj
  obtain ⟨hil, hi⟩ := List.getElem?_eq_some_iff.mp h2
  have hget : ∀ (a : Nat) (x : K × V), (t.set i (some kv))[a]? = some (some x) → (a = i ∧ x = kv) ∨ (a ≠ i ∧ t[a]? = some (some x)) := by
    intro a x ha
    rw [List.getElem?_set] at ha
    split at ha
    · next he => exact .inl ⟨he.symm, by simpa using ha.symm⟩
    · next he => exact .inr ⟨fun h => he h.symm, ha⟩
  unfold place
  rw [h1]
  refine ⟨⟨⟨k, by rw [List.length_set, hk], hk2⟩, by rw [items_set h2, List.length_set]; exact hroom, ?_, ?_⟩, List.length_set, items_set h2, ?_⟩
  · intro a x ha
    rcases hget a x ha with ⟨rfl, rfl⟩ | ⟨_, h⟩
    · exact reach_set h3
    · exact reach_set (hg.reach a x h)
  · intro a b x y ha hb hxy
    rcases hget a x ha with ⟨rfl, rfl⟩ | ⟨h4, h5⟩ <;> rcases hget b y hb with ⟨rfl, rfl⟩ | ⟨h6, h7⟩
    · rfl
    · exact (hnew y (List.mem_of_getElem? h7) hxy.symm).elim
    · exact (hnew x (List.mem_of_getElem? h5) hxy).elim
    · exact hg.uniq a b x y h5 h7 hxy
  · intro x
    constructor
    · intro hx
      obtain ⟨a, ha⟩ := List.mem_iff_getElem?.mp hx
      rcases hget a x ha with ⟨_, rfl⟩ | ⟨_, h⟩
      · exact .inr rfl
      · exact .inl (List.mem_of_getElem? h)
    · rintro (hx | rfl)
      · obtain ⟨a, ha⟩ := List.mem_iff_getElem?.mp hx
        refine List.mem_of_getElem? (i := a) ?_
        rw [List.getElem?_set_ne, ha]
        rintro rfl
        rw [h2] at ha
        cases ha
      · exact List.mem_of_getElem? (i := i) (by rw [List.getElem?_set_self hil])

omit [DecidableEq K] in
theorem places_spec {e : Nat} : ∀ (l : List (K × V)) (t : Table K V), Good H (2 ^ e) t → (l.Pairwise fun a b => a.1 ≠ b.1) →
    (∀ kv ∈ l, ∀ kv', some kv' ∈ t → kv'.1 ≠ kv.1) → items t + l.length ≤ capacity t.length →
    Good H (2 ^ e) (l.foldl (place H (2 ^ e)) t) ∧ (l.foldl (place H (2 ^ e)) t).length = t.length ∧
      items (l.foldl (place H (2 ^ e)) t) = items t + l.length ∧ ∀ x, some x ∈ l.foldl (place H (2 ^ e)) t ↔ some x ∈ t ∨ x ∈ l
  | [], t, hg, _, _, _ => ⟨hg, rfl, rfl, by simp⟩
  | kv :: l, t, hg, hp, hn, hr => by
    rw [List.length_cons] at hr
    rw [List.pairwise_cons] at hp
    obtain ⟨h1, h2, h3, h4⟩ := place_spec hg (hn kv List.mem_cons_self) (by omega)
    obtain ⟨g1, g2, g3, g4⟩ := places_spec l _ h1 hp.2 (fun a ha kv' hkv' => by
      rcases (h4 kv').mp hkv' with h | rfl
      · exact hn a (List.mem_cons_of_mem _ ha) kv' h
      · exact hp.1 a ha) (by rw [h2, h3]; omega)
    refine ⟨g1, g2.trans h2, by rw [List.foldl_cons, g3, h3, List.length_cons]; omega, fun x => ?_⟩
    rw [List.foldl_cons, g4 x, h4 x, List.mem_cons, or_assoc]

theorem bucketsFor_spec {k : Nat} (hk : k = 0 ∨ 2 ≤ k) :
    ∃ m, bucketsFor (capacity (2 ^ k) + 1) = 2 ^ m ∧ 2 ≤ m ∧ capacity (2 ^ k) + 1 ≤ capacity (2 ^ m) := by
  rcases hk with rfl | hk
  · exact ⟨2, by decide, by decide, by decide⟩
  · rcases Nat.lt_or_ge k 4 with h4 | h4
    · rcases (by omega : k = 2 ∨ k = 3) with rfl | rfl
      · exact ⟨3, by decide, by decide, by decide⟩
      · exact ⟨4, by decide, by decide, by decide⟩
    · obtain ⟨d, rfl⟩ := Nat.exists_eq_add_of_le h4
      have hp : 2 ^ (4 + d) = 8 * (2 * 2 ^ d) := by ring
      have hd : 0 < 2 ^ d := by positivity
      have hcap : capacity (2 ^ (4 + d)) = 7 * (2 * 2 ^ d) := by
        unfold capacity
        rw [if_neg (by omega)]
        omega
      have hlog : Nat.log2 (2 ^ (4 + d)) = 4 + d := Nat.log2_two_pow
      refine ⟨4 + d + 1, ?_, by omega, ?_⟩
      · unfold bucketsFor
        rw [if_neg (by omega), hcap, show (7 * (2 * 2 ^ d) + 1) * 8 / 7 - 1 = 2 ^ (4 + d) by omega, hlog]
      · rw [hcap]
        unfold capacity
        have : 2 ^ (4 + d + 1) = 8 * (4 * 2 ^ d) := by ring
        rw [if_neg (by omega)]
        omega

omit [DecidableEq K] in
theorem good_replicate (H : K → Nat) (W : Nat) {m : Nat} (hm : m = 0 ∨ 2 ≤ m) : Good H W (List.replicate (2 ^ m) none : Table K V) := by
  have hno : ∀ (i : Nat) (kv : K × V), (List.replicate (2 ^ m) none : Table K V)[i]? ≠ some (some kv) := by
    intro i kv h
    have := List.eq_of_mem_replicate (List.mem_of_getElem? h)
    cases this
  refine ⟨⟨m, by simp, hm⟩, ?_, fun i kv h => (hno i kv h).elim, fun i _ kv _ h => (hno i kv h).elim⟩
  have : items (List.replicate (2 ^ m) none : Table K V) = 0 := by
    unfold items
    rw [List.countP_replicate]
    rfl
  omega

omit [DecidableEq K] in
theorem good_new (H : K → Nat) (W : Nat) : Good H W (Table.new : Table K V) := good_replicate H W (m := 0) (.inl rfl)

omit [DecidableEq K] in
theorem reserve_spec {e : Nat} (hg : Good H (2 ^ e) t) :
    Good H (2 ^ e) (reserve H (2 ^ e) t) ∧ items (reserve H (2 ^ e) t) + 1 ≤ capacity (reserve H (2 ^ e) t).length ∧
      ∀ x, some x ∈ reserve H (2 ^ e) t ↔ some x ∈ t := by
  unfold reserve
  split
  · next hfull =>
    have hroom := hg.room
    obtain ⟨k, hk, hk2⟩ := hg.size
    have hit : items t = capacity t.length := by omega
    obtain ⟨m, hm, hm2, hmc⟩ := bucketsFor_spec hk2
    have hlen : (t.filterMap id).length = items t := by
      unfold items
      rw [List.length_filterMap_eq_countP]
      rfl
    unfold grow
    rw [hit, Nat.max_self, hk, hm]
    have hi0 : items (List.replicate (2 ^ m) none : Table K V) = 0 := by
      unfold items
      rw [List.countP_replicate]
      rfl
    have hno : ∀ x : K × V, some x ∉ (List.replicate (2 ^ m) none : Table K V) := fun x h => by cases List.eq_of_mem_replicate h
    have hpw : (t.filterMap id).Pairwise fun a b => a.1 ≠ b.1 := by
      rw [List.pairwise_filterMap, List.pairwise_iff_getElem]
      intro i j hi hj hij a ha b hb he
      simp only [id] at ha hb
      have := hg.uniq i j a b (by rw [List.getElem?_eq_getElem hi, ha]) (by rw [List.getElem?_eq_getElem hj, hb]) he
      omega
    obtain ⟨g1, g2, g3, g4⟩ := places_spec (H := H) (e := e) (t.filterMap id) _ (good_replicate H (2 ^ e) (m := m) (.inr hm2)) hpw
      (fun _ _ kv' h => (hno kv' h).elim) (by rw [hi0, hlen, List.length_replicate, hit, hk]; omega)
    refine ⟨g1, by rw [g3, g2, hi0, hlen, List.length_replicate, hit, hk]; omega, fun x => ?_⟩
    rw [g4 x, List.mem_filterMap]
    constructor
    · rintro (h | ⟨a, ha, hax⟩)
      · exact (hno x h).elim
      · simp only [id] at hax
        exact hax ▸ ha
    · exact fun h => .inr ⟨_, h, rfl⟩
  · next hne => exact ⟨hg, by omega, fun x => Iff.rfl⟩

/-- Inserting. -/
theorem insert_spec {e : Nat} (hg : Good H (2 ^ e) t) (key : K) (v : V) :
    Good H (2 ^ e) (insert H (2 ^ e) t key v) ∧ ∀ x, some x ∈ insert H (2 ^ e) t key v ↔ x = (key, v) ∨ (x.1 ≠ key ∧ some x ∈ t) := by
  unfold insert
  rcases find_spec hg key with ⟨i, w, h1, h2⟩ | ⟨h1, h2⟩
  · rw [h1]
    obtain ⟨hil, hi⟩ := List.getElem?_eq_some_iff.mp h2
    have hget : ∀ (a : Nat) (x : K × V), (t.set i (some (key, v)))[a]? = some (some x) → (a = i ∧ x = (key, v)) ∨ (a ≠ i ∧ t[a]? = some (some x)) := by
      intro a x ha
      rw [List.getElem?_set] at ha
      split at ha
      · next he => exact .inl ⟨he.symm, by simpa using ha.symm⟩
      · next he => exact .inr ⟨fun h => he h.symm, ha⟩
    have hother : ∀ (a : Nat) (x : K × V), a ≠ i → t[a]? = some (some x) → x.1 ≠ key := by
      intro a x hne ha he
      exact hne (hg.uniq a i x _ ha h2 he)
    obtain ⟨k, hk, hk2⟩ := hg.size
    refine ⟨⟨⟨k, by simp only [List.length_set]; exact hk, hk2⟩, ?_, ?_, ?_⟩, ?_⟩
    · simp only [List.length_set]
      rw [items_replace h2]
      exact hg.room
    · intro a x ha
      rcases hget a x ha with ⟨rfl, rfl⟩ | ⟨_, h⟩
      · exact reach_set (hg.reach _ (key, w) h2)
      · exact reach_set (hg.reach a x h)
    · intro a b x y ha hb hxy
      rcases hget a x ha with ⟨rfl, rfl⟩ | ⟨h4, h5⟩ <;> rcases hget b y hb with ⟨rfl, rfl⟩ | ⟨h6, h7⟩
      · rfl
      · exact (hother b y h6 h7 hxy.symm).elim
      · exact (hother a x h4 h5 hxy).elim
      · exact hg.uniq a b x y h5 h7 hxy
    · intro x
      constructor
      · intro hx
        obtain ⟨a, ha⟩ := List.mem_iff_getElem?.mp hx
        rcases hget a x ha with ⟨_, rfl⟩ | ⟨hne, h⟩
        · exact .inl rfl
        · exact .inr ⟨hother a x hne h, List.mem_of_getElem? h⟩
      · rintro (rfl | ⟨hne, hx⟩)
        · exact List.mem_of_getElem? (i := i) (by rw [List.getElem?_set_self hil])
        · obtain ⟨a, ha⟩ := List.mem_iff_getElem?.mp hx
          refine List.mem_of_getElem? (i := a) ?_
          rw [List.getElem?_set_ne, ha]
          rintro rfl
          rw [h2] at ha
          simp at ha
          exact hne (by rw [← ha])
  · rw [h1]
    obtain ⟨g1, g2, g3⟩ := reserve_spec hg
    have hnew : ∀ kv', some kv' ∈ reserve H (2 ^ e) t → kv'.1 ≠ (key, v).1 := by
      rintro ⟨a, b⟩ hkv rfl
      exact h2 b ((g3 _).mp hkv)
    obtain ⟨p1, _, _, p4⟩ := place_spec g1 hnew g2
    refine ⟨p1, fun x => ?_⟩
    rw [p4 x, g3 x]
    constructor
    · rintro (h | h)
      · exact .inr ⟨fun he => h2 x.2 (he ▸ h), h⟩
      · exact .inl h
    · rintro (h | ⟨_, h⟩)
      · exact .inr h
      · exact .inl h

/-- What one finds after inserting. -/
theorem get_insert {e : Nat} (hg : Good H (2 ^ e) t) (key : K) (v : V) (k' : K) :
    get H (2 ^ e) (insert H (2 ^ e) t key v) k' = if k' = key then some v else get H (2 ^ e) t k' := by
  obtain ⟨g1, g2⟩ := insert_spec hg key v
  refine Option.ext fun w => ?_
  rw [get_iff g1, g2]
  split
  · next he => subst he; simp; exact eq_comm
  · next he => rw [get_iff hg]; simp [he]

theorem get_new (H : K → Nat) (e : Nat) (k : K) : get H (2 ^ e) (Table.new : Table K V) k = none := by
  refine Option.ext fun w => ?_
  rw [get_iff (good_new H (2 ^ e))]
  simp [Table.new]

/-- The table stands for the association list. -/
structure Rep (H : K → Nat) (W : Nat) (t : Table K V) (l : List (K × V)) : Prop where
  good : Good H W t
  same : ∀ k, get H W t k = l.lookup k

theorem rep_new (H : K → Nat) (e : Nat) : Rep H (2 ^ e) (Table.new : Table K V) [] := ⟨good_new H _, fun k => by rw [get_new]; rfl⟩

theorem Rep.insert {e : Nat} {l : List (K × V)} (h : Rep H (2 ^ e) t l) (key : K) (v : V) : Rep H (2 ^ e) (insert H (2 ^ e) t key v) ((key, v) :: l) := by
  refine ⟨(insert_spec h.good key v).1, fun k => ?_⟩
  rw [get_insert h.good, List.lookup_cons]
  by_cases he : k = key
  · subst he; simp
  · rw [if_neg he, h.same k, beq_false_of_ne he]

end

end Seiren.Hb
