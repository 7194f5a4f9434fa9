import Verif.Model.Display
import Verif.Proofs.F32Round
import Verif.Proofs.SvgText
/-! # Facts about the shortest decimal numbers that are read as a number of the format -/

namespace Seiren
open Spec

/-! ## Rounding is monotone -/

theorem roundHalfEven_mono {p q : Rat} (h : p ≤ q) : roundHalfEven p ≤ roundHalfEven q := by
  have hf : p.floor ≤ q.floor := Rat.floor_monotone h
  have hb : ∀ r : Rat, r.floor ≤ roundHalfEven r ∧ roundHalfEven r ≤ r.floor + 1 := by
    intro r
    unfold roundHalfEven
    simp only
    split_ifs <;> omega
  rcases lt_or_eq_of_le hf with hlt | heq
  · have := (hb p).2
    have := (hb q).1
    omega
  · unfold roundHalfEven
    simp only [heq]
    split_ifs <;> first | omega | (exfalso; linarith)

theorem roundF32_mono_pos {p q : Rat} (hp : 0 ≤ p) (h : p ≤ q) : roundF32 p ≤ roundF32 q := by
  rcases hp.eq_or_lt with rfl | hp
  · rw [show roundF32 0 = 0 from if_pos rfl]
    unfold roundF32
    split
    · exact le_refl _
    · have : (0 : Int) ≤ roundHalfEven (q / 2 ^ ulpExp q) := by
        have := roundHalfEven_mono (p := ((0 : Int) : Rat)) (q := q / 2 ^ ulpExp q) (by
          have := two_zpow_pos (ulpExp q)
          push_cast
          positivity)
        rwa [roundHalfEven_int] at this
      have hc : (0 : Rat) ≤ (roundHalfEven (q / 2 ^ ulpExp q) : Int) := by exact_mod_cast this
      have := two_zpow_pos (ulpExp q)
      positivity
  · have hq : 0 < q := lt_of_lt_of_le hp h
    have hlog : Int.log 2 |p| ≤ Int.log 2 |q| := by
      rw [abs_of_pos hp, abs_of_pos hq]
      exact Int.log_mono_right hp h
    unfold roundF32
    rw [if_neg hp.ne', if_neg hq.ne']
    have hup := two_zpow_pos (ulpExp p)
    have huq := two_zpow_pos (ulpExp q)
    have hle : ulpExp p ≤ ulpExp q := by unfold ulpExp; omega
    rcases hle.eq_or_lt with he | hlt
    · rw [← he]
      have := roundHalfEven_mono (p := p / 2 ^ ulpExp p) (q := q / 2 ^ ulpExp p) (div_le_div_of_nonneg_right h hup.le)
      have hc : ((roundHalfEven (p / 2 ^ ulpExp p) : Int) : Rat) ≤ (roundHalfEven (q / 2 ^ ulpExp p) : Int) := by exact_mod_cast this
      exact mul_le_mul_of_nonneg_right hc hup.le
    · -- a power of two lies between them
      have e1 : ulpExp q = Int.log 2 |q| - 23 := by unfold ulpExp at hlt ⊢; omega
      have hlt' : Int.log 2 |p| < Int.log 2 |q| := by unfold ulpExp at hlt; omega
      have hpq : p < 2 ^ Int.log 2 |q| := by
        rw [abs_of_pos hp] at hlt'
        have := (Int.lt_zpow_iff_log_lt (b := 2) (by norm_num) hp).mpr hlt'
        exact_mod_cast this
      have hqq : (2 : Rat) ^ Int.log 2 |q| ≤ q := by
        have := Int.zpow_log_le_self (b := 2) (by norm_num) (abs_pos.mpr hq.ne')
        rw [abs_of_pos hq] at this ⊢
        exact_mod_cast this
      have hsplit : ∀ u : Int, u ≤ Int.log 2 |q| → ∃ n : Int, (2 : Rat) ^ Int.log 2 |q| = n * 2 ^ u := by
        intro u hu
        obtain ⟨d, hd⟩ := Int.eq_ofNat_of_zero_le (sub_nonneg.mpr hu)
        refine ⟨2 ^ d, ?_⟩
        rw [show Int.log 2 |q| = (d : Int) + u by omega, zpow_add₀ (by norm_num)]
        push_cast
        simp
      obtain ⟨n, hn⟩ := hsplit (ulpExp p) (by omega)
      obtain ⟨n', hn'⟩ := hsplit (ulpExp q) (by omega)
      have a1 : (roundHalfEven (p / 2 ^ ulpExp p) : Rat) * 2 ^ ulpExp p ≤ 2 ^ Int.log 2 |q| := by
        have := roundHalfEven_mono (p := p / 2 ^ ulpExp p) (q := (n : Rat)) (by
          rw [div_le_iff₀ hup, ← hn]; exact hpq.le)
        rw [roundHalfEven_int] at this
        have hc : ((roundHalfEven (p / 2 ^ ulpExp p) : Int) : Rat) ≤ (n : Int) := by exact_mod_cast this
        rw [hn]
        exact mul_le_mul_of_nonneg_right hc hup.le
      have a2 : (2 : Rat) ^ Int.log 2 |q| ≤ (roundHalfEven (q / 2 ^ ulpExp q) : Rat) * 2 ^ ulpExp q := by
        have := roundHalfEven_mono (p := (n' : Rat)) (q := q / 2 ^ ulpExp q) (by
          rw [le_div_iff₀ huq, ← hn']; exact hqq)
        rw [roundHalfEven_int] at this
        have hc : ((n' : Int) : Rat) ≤ (roundHalfEven (q / 2 ^ ulpExp q) : Int) := by exact_mod_cast this
        rw [hn']
        exact mul_le_mul_of_nonneg_right hc huq.le
      exact a1.trans a2

theorem isF32_le_max {x : Rat} (h : IsF32 x) : x ≤ f32Max := by
  obtain ⟨m, e, hm, -, he, rfl⟩ := h
  have h1 : (m : Rat) ≤ 2 ^ 24 - 1 := by
    have : m ≤ 2 ^ 24 - 1 := by have := le_abs_self m; omega
    have hc : (m : Rat) ≤ ((2 ^ 24 - 1 : Int) : Rat) := by exact_mod_cast this
    norm_num at hc ⊢
    exact hc
  have h2 : (2 : Rat) ^ e ≤ 2 ^ (104 : Int) := zpow_le_zpow_right₀ (by norm_num) he
  have h3 := two_zpow_pos e
  calc (m : Rat) * 2 ^ e ≤ (2 ^ 24 - 1) * 2 ^ e := mul_le_mul_of_nonneg_right h1 h3.le
    _ ≤ (2 ^ 24 - 1) * 2 ^ (104 : Int) := mul_le_mul_of_nonneg_left h2 (by norm_num)
    _ = f32Max := by unfold f32Max; norm_num

/-! ## The search -/

theorem ten_zpow_pos (k : Int) : (0 : Rat) < 10 ^ k := zpow_pos (by norm_num) k

/-- The two candidates enclose the number. -/
theorem enclose {x : Rat} (hx : 0 < x) (k : Int) :
    (((x / 10 ^ k).floor.toNat : Nat) : Rat) * 10 ^ k ≤ x ∧ x < ((x / 10 ^ k).floor.toNat + 1 : Nat) * 10 ^ k := by
  have hk := ten_zpow_pos k
  have h0 : (0 : Rat) ≤ x / 10 ^ k := (div_pos hx hk).le
  have hf : (0 : Int) ≤ (x / 10 ^ k).floor := by
    have := Rat.floor_monotone h0
    rwa [show (0 : Rat).floor = 0 from Rat.floor_intCast 0] at this
  have hc : (((x / 10 ^ k).floor.toNat : Nat) : Rat) = ((x / 10 ^ k).floor : Int) := by
    rw [← Int.cast_natCast, Int.toNat_of_nonneg hf]
  constructor
  · rw [hc, ← le_div_iff₀ hk]
    exact Rat.floor_le _
  · push_cast
    rw [hc, ← div_lt_iff₀ hk]
    have := Rat.lt_floor_add_one (x / 10 ^ k)
    push_cast at this
    exact this

/-- If a multiple of 10^k is read as the number, then so is the candidate on its side. -/
theorem candidate {x : Rat} (hx : 0 < x) (hf : IsF32 x) {k : Int} {c : Nat} (h : roundF32 (c * 10 ^ k) = x) :
    (c ≤ (x / 10 ^ k).floor.toNat → roundF32 ((x / 10 ^ k).floor.toNat * 10 ^ k) = x) ∧
    ((x / 10 ^ k).floor.toNat < c → roundF32 (((x / 10 ^ k).floor.toNat + 1 : Nat) * 10 ^ k) = x) := by
  have hk := ten_zpow_pos k
  have hself := roundF32_exact x hf
  obtain ⟨h1, h2⟩ := enclose hx k
  generalize (x / 10 ^ k).floor.toNat = lo at h1 h2
  constructor
  · intro hc
    have hc' : (c : Rat) * 10 ^ k ≤ lo * 10 ^ k := mul_le_mul_of_nonneg_right (by exact_mod_cast hc) hk.le
    have a1 := roundF32_mono_pos (by positivity) hc'
    have a2 := roundF32_mono_pos (p := (lo : Rat) * 10 ^ k) (by positivity) h1
    rw [h] at a1
    rw [hself] at a2
    exact le_antisymm a2 a1
  · intro hc
    have hc' : ((lo + 1 : Nat) : Rat) * 10 ^ k ≤ c * 10 ^ k := mul_le_mul_of_nonneg_right (by exact_mod_cast hc) hk.le
    have a1 := roundF32_mono_pos (by positivity) hc'
    have a2 := roundF32_mono_pos hx.le h2.le
    rw [h] at a1
    rw [hself] at a2
    exact le_antisymm a1 a2

/-- What is found at an exponent is read as the number, and no multiple that is read as the number is closer, or as close and
greater. -/
theorem decimalAt_some {x : Rat} (hx : 0 < x) (hf : IsF32 x) {k : Int} {c : Nat} (h : decimalAt x k = some c) :
    roundF32 (c * 10 ^ k) = x ∧ ∀ c' : Nat, roundF32 (c' * 10 ^ k) = x → |(c : Rat) * 10 ^ k - x| < |(c' : Rat) * 10 ^ k - x| ∨
      |(c : Rat) * 10 ^ k - x| = |(c' : Rat) * 10 ^ k - x| ∧ c' ≤ c := by
  have hk := ten_zpow_pos k
  have hcand := fun c' => candidate hx hf (k := k) (c := c')
  obtain ⟨h1, h2⟩ := enclose hx k
  unfold decimalAt at h
  simp only at h
  generalize (x / 10 ^ k).floor.toNat = lo at *
  -- a multiple on one side is no closer than the candidate there
  have hle : ∀ {a b : Rat} {P : Prop}, a ≤ b → (a = b → P) → a < b ∨ a = b ∧ P := fun h hp =>
    (lt_or_eq_of_le h).imp_right fun e => ⟨e, hp e⟩
  have hnat : ∀ {a b : Nat}, (a : Rat) * 10 ^ k ≤ b * 10 ^ k → a ≤ b := fun h => by
    exact_mod_cast le_of_mul_le_mul_right h hk
  have hside : ∀ c' : Nat, (c' ≤ lo ∧ (c' : Rat) * 10 ^ k ≤ lo * 10 ^ k) ∨ (lo < c' ∧ ((lo + 1 : Nat) : Rat) * 10 ^ k ≤ c' * 10 ^ k) := by
    intro c'
    rcases Nat.lt_or_ge lo c' with h | h
    · refine Or.inr ⟨h, mul_le_mul_of_nonneg_right ?_ hk.le⟩
      exact_mod_cast h
    · refine Or.inl ⟨h, mul_le_mul_of_nonneg_right ?_ hk.le⟩
      exact_mod_cast h
  split at h
  · rename_i hc
    cases h
    refine ⟨hc.1, ?_⟩
    intro c' hc'
    rw [abs_of_nonneg (by linarith)]
    rcases hside c' with ⟨hl, hs⟩ | ⟨-, hs⟩
    · rw [abs_of_nonpos (by linarith)]
      rcases hc.2 with hb | hb
      · exact absurd ((hcand c' hc').1 hl) hb
      · exact hle (by linarith) fun _ => by omega
    · rw [abs_of_nonneg (by linarith)]
      exact hle (by linarith) fun e => hnat (by linarith)
  · rename_i hc
    split at h
    · rename_i hb
      cases h
      refine ⟨hb, ?_⟩
      intro c' hc'
      rw [abs_of_nonpos (by linarith)]
      rcases hside c' with ⟨-, hs⟩ | ⟨hl, hs⟩
      · rw [abs_of_nonpos (by linarith)]
        exact hle (by linarith) fun e => hnat (by linarith)
      · rw [abs_of_nonneg (by linarith)]
        left
        by_contra hlt
        apply hc
        refine ⟨(hcand c' hc').2 hl, Or.inr ?_⟩
        linarith
    · cases h

/-- If nothing is found at an exponent, no multiple is read as the number. -/
theorem decimalAt_none {x : Rat} (hx : 0 < x) (hf : IsF32 x) {k : Int} (h : decimalAt x k = none) (c : Nat) :
    roundF32 (c * 10 ^ k) ≠ x := by
  intro hc
  have hcand := candidate hx hf hc
  unfold decimalAt at h
  simp only at h
  generalize (x / 10 ^ k).floor.toNat = lo at *
  split at h
  · cases h
  · rename_i h1
    split at h
    · cases h
    · rename_i h2
      rcases Nat.lt_or_ge lo c with hl | hl
      · exact h1 ⟨hcand.2 hl, Or.inl h2⟩
      · exact h2 (hcand.1 hl)

namespace Spec

/-- `c` times 10^k is the shortest decimal number that is read as `x`: it is read as `x`, no multiple of a greater power of ten is,
and every other multiple of 10^k that is read as `x` is less close to it, or as close and smaller. -/
structure ShortestDecimal (x : Rat) (c : Nat) (k : Int) : Prop where
  reads : roundF32 (c * 10 ^ k) = x
  shortest : ∀ (c' : Nat) (k' : Int), roundF32 (c' * 10 ^ k') = x → k' ≤ k
  closest : ∀ c' : Nat, roundF32 (c' * 10 ^ k) = x → |(c : Rat) * 10 ^ k - x| < |(c' : Rat) * 10 ^ k - x| ∨
    |(c : Rat) * 10 ^ k - x| = |(c' : Rat) * 10 ^ k - x| ∧ c' ≤ c

/-- There is only one. -/
theorem ShortestDecimal.unique {x : Rat} {c c' : Nat} {k k' : Int} (h : ShortestDecimal x c k) (h' : ShortestDecimal x c' k') :
    c = c' ∧ k = k' := by
  obtain rfl : k = k' := le_antisymm (h'.shortest c k h.reads) (h.shortest c' k' h'.reads)
  refine ⟨?_, rfl⟩
  rcases h.closest c' h'.reads with h1 | ⟨h1, h2⟩ <;> rcases h'.closest c h.reads with h3 | ⟨h3, h4⟩
  · exact absurd (h1.trans h3) (lt_irrefl _)
  · exact absurd (h3 ▸ h1) (lt_irrefl _)
  · exact absurd (h1 ▸ h3) (lt_irrefl _)
  · omega

end Spec

/-- Every number of the format is a multiple of 10^-149. -/
theorem isF32_decimal {x : Rat} (hx : 0 < x) (hf : IsF32 x) : ∃ c : Nat, x = c * 10 ^ (-149 : Int) := by
  obtain ⟨m, e, -, he, -, rfl⟩ := hf
  obtain ⟨d, hd⟩ := Int.eq_ofNat_of_zero_le (show 0 ≤ e + 149 by omega)
  have hm : 0 < m := by
    have := two_zpow_pos e
    by_contra hc
    have : (m : Rat) ≤ 0 := by exact_mod_cast not_lt.mp hc
    nlinarith
  obtain ⟨n, rfl⟩ := Int.eq_ofNat_of_zero_le hm.le
  refine ⟨n * 2 ^ d * 5 ^ 149, ?_⟩
  rw [show e = (d : Int) + (-149) by omega, zpow_add₀ (by norm_num)]
  push_cast
  rw [zpow_natCast, mul_assoc, mul_assoc]
  congr 2
  norm_num

theorem shortestFrom_spec {x : Rat} (hx : 0 < x) (hf : IsF32 x) (fuel : Nat) (k : Int) (hk : k - fuel < -149) (hk' : -149 ≤ k)
    (habove : ∀ (c' : Nat) (k' : Int), roundF32 (c' * 10 ^ k') = x → k' ≤ k) :
    ShortestDecimal x (shortestFrom x fuel k).1 (shortestFrom x fuel k).2 := by
  induction fuel generalizing k with
  | zero => omega
  | succ fuel ih =>
    unfold shortestFrom
    cases h : decimalAt x k with
    | some c =>
      obtain ⟨h1, h2⟩ := decimalAt_some hx hf h
      exact ⟨h1, habove, h2⟩
    | none =>
      have hno := decimalAt_none hx hf h
      simp only
      have hne : k ≠ -149 := by
        rintro rfl
        obtain ⟨c, hc⟩ := isF32_decimal hx hf
        exact hno c (by rw [← hc]; exact roundF32_exact x hf)
      refine ih (k - 1) (by push_cast at hk; omega) (by omega) ?_
      intro c' k' hr
      have := habove c' k' hr
      rcases this.eq_or_lt with rfl | hlt
      · exact absurd hr (hno c')
      · omega

theorem shortest_spec {x : Rat} (hx : 0 < x) (hf : IsF32 x) :
    ShortestDecimal x (shortestFrom x 200 39).1 (shortestFrom x 200 39).2 := by
  refine shortestFrom_spec hx hf 200 39 (by norm_num) (by norm_num) ?_
  intro c k hr
  by_contra hk
  have hc : 1 ≤ c := by
    by_contra h
    obtain rfl : c = 0 := by omega
    rw [Nat.cast_zero, zero_mul, show roundF32 0 = 0 from if_pos rfl] at hr
    exact hx.ne hr
  have h1 : (2 : Rat) ^ 128 ≤ c * 10 ^ k := by
    have a1 : (10 : Rat) ^ (39 : Int) ≤ 10 ^ k := zpow_le_zpow_right₀ (by norm_num) (by omega)
    have a2 : (1 : Rat) ≤ c := by exact_mod_cast hc
    calc (2 : Rat) ^ 128 ≤ 10 ^ (39 : Int) := by norm_num
      _ ≤ 10 ^ k := a1
      _ ≤ c * 10 ^ k := le_mul_of_one_le_left (ten_zpow_pos k).le a2
  have h2 := roundF32_mono_pos (by norm_num) h1
  have h3 : roundF32 (2 ^ 128) = 2 ^ 128 := by decide +kernel
  have h4 := isF32_le_max hf
  rw [hr, h3] at h2
  unfold f32Max at h4
  norm_num at h2 h4
  linarith

/-! ## The text of a decimal number -/

theorem natural_append {s t : Str} (hs : s ≠ []) (ht : t.all Char.isDigit = true) {n : Nat} (h : natural s = some n) :
    natural (s ++ t) = some (t.foldl (fun n c => 10 * n + (c.toNat - 48)) n) := by
  unfold natural at h ⊢
  split at h
  · rename_i hc
    cases h
    rw [if_pos ⟨by simp [hs], by rw [List.all_append, hc.2, ht]; rfl⟩, List.foldl_append]
  · cases h

theorem foldl_zeros (d n : Nat) : (List.replicate d '0').foldl (fun n c => 10 * n + (c.toNat - 48)) n = n * 10 ^ d := by
  induction d generalizing n with
  | zero => simp
  | succ d ih => rw [List.replicate_succ, List.foldl_cons, ih, show '0'.toNat - 48 = 0 by decide, Nat.add_zero, pow_succ]; ring

theorem zeros_digits (d : Nat) : (List.replicate d '0').all Char.isDigit = true := by
  rw [List.all_replicate]; simp

theorem toDigits_digits (n : Nat) : (Nat.toDigits 10 n).all Char.isDigit = true :=
  List.all_eq_true.mpr fun _ hc => Nat.isDigit_of_mem_toDigits (by decide : 0 < 10) (by decide) hc

theorem natural_padded (d n : Nat) : natural (List.replicate d '0' ++ Nat.toDigits 10 n) = some n := by
  rcases Nat.eq_zero_or_pos d with rfl | hd
  · simpa using natural_toDigits n
  · have h0 : natural (List.replicate d '0') = some 0 := by
      unfold natural
      rw [if_pos ⟨by simp; omega, zeros_digits d⟩, foldl_zeros, Nat.zero_mul]
    rw [natural_append (by simp; omega) (toDigits_digits n) h0]
    have := natural_toDigits n
    unfold natural at this
    rw [if_pos ⟨toDigits_ne_nil n, toDigits_digits n⟩] at this
    exact this

theorem digits_no_point {s : Str} (h : s.all Char.isDigit = true) : ∀ c ∈ s, (c != '.') = true := by
  intro c hc
  have := List.all_eq_true.mp h c hc
  simp only [bne_iff_ne, ne_eq]
  rintro rfl
  revert this; decide

theorem toDigits_length_le {n d : Nat} (h : n < 10 ^ d) (hd : 0 < d) : (Nat.toDigits 10 n).length ≤ d :=
  (Nat.length_toDigits_le_iff (by decide) hd).mpr h

/-- The text of a decimal number is read as that number. -/
theorem unsigned_decimalText (c : Nat) (k : Int) : unsigned (decimalText c k) = some ((c : Rat) * 10 ^ k) := by
  unfold decimalText
  split
  · rename_i hk
    obtain ⟨d, rfl⟩ := Int.eq_ofNat_of_zero_le hk
    have hdig : (Nat.toDigits 10 c ++ List.replicate (d : Int).toNat '0').all Char.isDigit = true := by
      rw [List.all_append, toDigits_digits, zeros_digits]; rfl
    obtain ⟨-, h2⟩ := span_append (digits_no_point hdig) (rest := []) (by simp)
    rw [List.append_nil] at h2
    rw [unsigned, h2]
    simp only
    rw [natural_append (toDigits_ne_nil c) (zeros_digits _) (natural_toDigits c), foldl_zeros]
    simp
  · rename_i hk
    obtain ⟨d, hd⟩ := Int.eq_ofNat_of_zero_le (show 0 ≤ -k by omega)
    simp only [hd, Int.toNat_natCast]
    have hdpos : 0 < d := by omega
    have hlt : c % 10 ^ d < 10 ^ d := Nat.mod_lt _ (by positivity)
    have hlen := toDigits_length_le hlt hdpos
    rw [List.append_assoc, List.append_assoc]
    obtain ⟨h1, h2⟩ := span_append (digits_no_point (toDigits_digits (c / 10 ^ d)))
      (rest := c!"." ++ (List.replicate (d - (Nat.toDigits 10 (c % 10 ^ d)).length) '0' ++ Nat.toDigits 10 (c % 10 ^ d))) (by simp)
    rw [unsigned, h2]
    simp only [List.cons_append, List.nil_append] at h1 ⊢
    rw [h1, natural_toDigits, natural_padded]
    simp only [List.length_append, List.length_replicate, Option.some.injEq]
    rw [show d - (Nat.toDigits 10 (c % 10 ^ d)).length + (Nat.toDigits 10 (c % 10 ^ d)).length = d by omega,
      show k = -(d : Int) by omega, zpow_neg, zpow_natCast]
    have hq : (c : Rat) = (c / 10 ^ d : Nat) * 10 ^ d + (c % 10 ^ d : Nat) := by
      have := Nat.div_add_mod c (10 ^ d)
      rw [mul_comm] at this
      exact_mod_cast this.symm
    have hp : (0 : Rat) < 10 ^ d := by positivity
    field_simp
    linarith

theorem decimalText_head (c : Nat) (k : Int) : ∀ s, decimalText c k ≠ '-' :: s := by
  intro s hs
  have hh : ∀ n t, Nat.toDigits 10 n ++ t ≠ '-' :: s := by
    intro n t he
    obtain ⟨d, ds, hd⟩ := List.exists_cons_of_ne_nil (toDigits_ne_nil n)
    have := List.all_eq_true.mp (toDigits_digits n) d (by rw [hd]; simp)
    rw [hd, List.cons_append, List.cons.injEq] at he
    rw [he.1] at this
    revert this; decide
  unfold decimalText at hs
  split at hs
  · exact hh _ _ hs
  · simp only [List.append_assoc] at hs
    exact hh _ _ hs

theorem decimal_decimalText (c : Nat) (k : Int) : decimal (decimalText c k) = some ((c : Rat) * 10 ^ k) := by
  rw [decimal, unsigned_decimalText]
  exact decimalText_head c k

/-! ## Multiples of 1/2 -/

theorem toDigits_mul_ten {c : Nat} (hc : 0 < c) : Nat.toDigits 10 (c * 10) = Nat.toDigits 10 c ++ ['0'] := by
  have := Nat.toDigits_append_toDigits (b := 10) (n := c) (d := 0) (by decide) hc (by decide)
  rw [show c * 10 = 10 * c + 0 by ring, ← this]
  rfl

theorem toDigits_mul_pow {c : Nat} (hc : 0 < c) (d : Nat) : Nat.toDigits 10 (c * 10 ^ d) = Nat.toDigits 10 c ++ List.replicate d '0' := by
  induction d with
  | zero => simp
  | succ d ih =>
    rw [pow_succ, ← mul_assoc, toDigits_mul_ten (by positivity), ih, List.append_assoc]
    congr 1
    rw [List.replicate_succ']

/-- A multiple of 1/2 below 2^23 is printed exactly. -/
theorem displayF32_half_pos (n : Nat) (h0 : 0 < n) (h : n < 2 ^ 24) : displayF32 ((n : Rat) / 2) = displayNum ((n : Rat) / 2) := by
  have hx : (0 : Rat) < (n : Rat) / 2 := by positivity
  have hf : IsF32 ((n : Rat) / 2) := by
    have := isF32_half (n : Int) (by rw [abs_of_nonneg (by omega)]; exact_mod_cast h)
    simpa using this
  have hself := roundF32_exact _ hf
  have hs := shortest_spec hx hf
  have htext : displayF32 ((n : Rat) / 2) = decimalText (shortestFrom ((n : Rat) / 2) 200 39).1 (shortestFrom ((n : Rat) / 2) 200 39).2 := by
    unfold displayF32
    rw [if_neg hx.ne', if_neg (not_lt.mpr hx.le), abs_of_pos hx]
    exact List.nil_append _
  have hnum : displayNum ((n : Rat) / 2) = Nat.toDigits 10 (n / 2) ++ (if n % 2 = 1 then c!".5" else []) := by
    unfold displayNum
    have e : ((n : Rat) / 2 * 2).floor = (n : Int) := by
      rw [show (n : Rat) / 2 * 2 = ((n : Int) : Rat) by push_cast; ring]; exact Rat.floor_intCast _
    simp only [e]
    rw [if_neg (by omega)]
    rfl
  rw [htext, hnum]
  generalize (shortestFrom ((n : Rat) / 2) 200 39).1 = c at *
  generalize (shortestFrom ((n : Rat) / 2) 200 39).2 = k at *
  have hk : -1 ≤ k := by
    refine hs.shortest (5 * n) (-1) ?_
    rw [show (((5 * n : Nat) : Rat)) * 10 ^ (-1 : Int) = (n : Rat) / 2 by push_cast; ring]
    exact hself
  rcases hk.eq_or_lt with rfl | hk
  · -- one digit behind the point
    have hodd : n % 2 = 1 := by
      by_contra hev
      have := hs.shortest (n / 2) 0 (by
        rw [zpow_zero, mul_one, show ((n / 2 : Nat) : Rat) = (n : Rat) / 2 by
          have : n = 2 * (n / 2) := by omega
          have hc : (n : Rat) = 2 * ((n / 2 : Nat) : Rat) := by exact_mod_cast this
          rw [hc]; ring]
        exact hself)
      omega
    have hc : c = 5 * n := by
      have := hs.closest (5 * n) (by
        rw [show (((5 * n : Nat) : Rat)) * 10 ^ (-1 : Int) = (n : Rat) / 2 by push_cast; ring]; exact hself)
      rw [show (((5 * n : Nat) : Rat)) * 10 ^ (-1 : Int) = (n : Rat) / 2 by push_cast; ring, sub_self, abs_zero] at this
      have := abs_eq_zero.mp (le_antisymm (this.elim le_of_lt fun e => e.1.le) (abs_nonneg _))
      have : (c : Rat) = ((5 * n : Nat) : Rat) := by
        push_cast
        rw [show (10 : Rat) ^ (-1 : Int) = 1 / 10 by norm_num] at this
        linarith
      exact_mod_cast this
    subst hc
    unfold decimalText
    rw [if_neg (by decide), if_pos hodd]
    simp only [show (- (-1 : Int)).toNat = 1 from rfl, pow_one]
    rw [show 5 * n / 10 = n / 2 by omega, show 5 * n % 10 = 5 by omega]
    simp only [List.append_assoc]
    congr 1
  · -- a whole number
    obtain ⟨d, rfl⟩ := Int.eq_ofNat_of_zero_le (show 0 ≤ k by omega)
    have hr := hs.reads
    rw [zpow_natCast, show (c : Rat) * 10 ^ d = ((c * 10 ^ d : Nat) : Rat) by push_cast; rfl] at hr
    have hlt : c * 10 ^ d < 2 ^ 24 := by
      by_contra hge
      have h1 : ((2 ^ 24 : Nat) : Rat) ≤ ((c * 10 ^ d : Nat) : Rat) := by exact_mod_cast not_lt.mp hge
      have h2 := roundF32_mono_pos (by positivity) h1
      rw [hr, show roundF32 ((2 ^ 24 : Nat) : Rat) = 16777216 by decide +kernel] at h2
      have h3 : (n : Rat) < ((2 ^ 24 : Nat) : Rat) := by exact_mod_cast h
      rw [show ((2 ^ 24 : Nat) : Rat) = 16777216 by norm_num] at h3
      linarith
    have hz : IsF32 ((c * 10 ^ d : Nat) : Rat) :=
      ⟨((c * 10 ^ d : Nat) : Int), 0, by rw [abs_of_nonneg (by positivity)]; exact_mod_cast hlt, by norm_num, by norm_num, by
        rw [zpow_zero, mul_one, Int.cast_natCast]⟩
    rw [roundF32_exact _ hz] at hr
    have hn : n = 2 * (c * 10 ^ d) := by
      have : (n : Rat) = ((2 * (c * 10 ^ d) : Nat) : Rat) := by
        rw [Nat.cast_mul, hr]; push_cast; ring
      exact_mod_cast this
    have hc : 0 < c := by
      by_contra hz
      obtain rfl : c = 0 := by omega
      omega
    unfold decimalText
    rw [if_pos (by omega), if_neg (by omega), hn, Nat.mul_div_cancel_left _ (by decide), toDigits_mul_pow hc]
    simp

theorem displayF32_neg {x : Rat} (hx : 0 < x) : displayF32 (-x) = '-' :: displayF32 x := by
  unfold displayF32
  rw [if_neg (by linarith), if_neg hx.ne', abs_neg]
  simp only
  rw [if_pos (by linarith), if_neg (not_lt.mpr hx.le), List.singleton_append, List.nil_append]

theorem displayNum_neg (m : Nat) (hm : 0 < m) : displayNum (-((m : Rat) / 2)) = '-' :: displayNum ((m : Rat) / 2) := by
  unfold displayNum
  have e1 : ((m : Rat) / 2 * 2).floor = (m : Int) := by
    rw [show (m : Rat) / 2 * 2 = ((m : Int) : Rat) by push_cast; ring]; exact Rat.floor_intCast _
  have e2 : (-((m : Rat) / 2) * 2).floor = -(m : Int) := by
    rw [show -((m : Rat) / 2) * 2 = ((-(m : Int) : Int) : Rat) by push_cast; ring]; exact Rat.floor_intCast _
  simp only [e1, e2, Int.natAbs_neg]
  rw [if_pos (show -(m : Int) < 0 by omega), if_neg (show ¬ (m : Int) < 0 by omega)]
  rfl

/-- The same for any sign. -/
theorem displayF32_half (n : Int) (h : |n| < 2 ^ 24) : displayF32 ((n : Rat) / 2) = displayNum ((n : Rat) / 2) := by
  rcases lt_trichotomy n 0 with hn | rfl | hn
  · obtain ⟨m, hm⟩ := Int.eq_ofNat_of_zero_le (show 0 ≤ -n by omega)
    obtain rfl : n = -(m : Int) := by omega
    have hm0 : 0 < m := by omega
    have key := displayF32_half_pos m hm0 (by rw [abs_neg, abs_of_nonneg (by omega)] at h; exact_mod_cast h)
    have hx : (0 : Rat) < (m : Rat) / 2 := by positivity
    have e : ((-(m : Int) : Int) : Rat) / 2 = -((m : Rat) / 2) := by push_cast; ring
    rw [e, displayF32_neg hx, displayNum_neg m hm0, key]
  · decide +kernel
  · obtain ⟨m, rfl⟩ := Int.eq_ofNat_of_zero_le hn.le
    have key := displayF32_half_pos m (by omega) (by rw [abs_of_nonneg (by omega)] at h; exact_mod_cast h)
    rw [Int.cast_natCast]
    exact key

end Seiren
