import Verif.Proofs.ParseAutomaton
/-! # The automaton reads exactly the beginnings of sentences -/

namespace Seiren
open Spec

/-- Run the automaton on all tokens. -/
def St.run (s : St) : List Token → Option St
  | [] => some s
  | t :: ts => (s.step t).bind fun s' => s'.run ts

theorem run_append (s : St) (v w : List Token) : s.run (v ++ w) = (s.run v).bind fun s' => s'.run w := by
  induction v generalizing s with
  | nil => rfl
  | cons t v ih =>
    simp only [List.cons_append, St.run]
    rcases s.step t with _ | s'
    · rfl
    · exact ih s'

theorem run_cons {s s' : St} {t : Token} (h : s.step t = some s') (ts : List Token) : s.run (t :: ts) = s'.run ts := by
  simp [St.run, h]

theorem run_then {s s' : St} {v : List Token} (h : s.run v = some s') (w : List Token) : s.run (v ++ w) = s'.run w := by
  rw [run_append, h]; rfl

theorem run_pads {s : St} (h : s.sep = some s) {p : List Token} (hp : ∀ t ∈ p, IsSeparator t) : s.run p = some s := by
  induction p with
  | nil => rfl
  | cons t p ih =>
    rw [run_cons (by rw [step_isSep ((isSep_iff t).2 (hp t (by simp))), h])]
    exact ih fun t ht => hp t (by simp [ht])

/-- Separators from a state that leaves itself at the first one. -/
theorem run_pads' {s s' : St} (h : s.sep = some s') (h' : s'.sep = some s') {p : List Token} (hp : ∀ t ∈ p, IsSeparator t) :
    s.run p = some s ∨ s.run p = some s' := by
  rcases p with _ | ⟨t, p⟩
  · exact Or.inl rfl
  · rw [run_cons (by rw [step_isSep ((isSep_iff t).2 (hp t (by simp))), h])]
    exact Or.inr (run_pads h' fun t ht => hp t (by simp [ht]))

theorem run_more {α : Type} {G : α → List Token → Prop} {b : St} {E : St → Prop} (hb : b.sep = some b)
    (hE : ∀ s, E s → s.sep = some b) (hG : ∀ a w, G a w → ∃ s, E s ∧ b.run w = some s) {as : List α} {w : List Token}
    (h : More implemented G as w) {s : St} (hs : E s) : ∃ s', E s' ∧ s.run w = some s' := by
  induction h generalizing s with
  | done => exact ⟨s, hs, rfl⟩
  | more t p a w as v ht hp ha hv ih =>
    rw [run_cons (by rw [step_isSep ((isSep_iff t).2 ht), hE s hs]), run_then (run_pads hb hp)]
    obtain ⟨sx, hs1, h1⟩ := hG a w ha
    rw [run_then h1]
    exact ih hs1

theorem run_items {α : Type} {G : α → List Token → Prop} {b : St} {E : St → Prop} (hb : b.sep = some b)
    (hE : ∀ s, E s → s.sep = some b) (hG : ∀ a w, G a w → ∃ s, E s ∧ b.run w = some s) {as : List α} {w : List Token}
    (h : Items implemented G as w) : ∃ s', (s' = b ∨ E s') ∧ b.run w = some s' := by
  cases h with
  | empty => exact ⟨b, Or.inl rfl, rfl⟩
  | items a w as v ha hv =>
    obtain ⟨sx, hs1, h1⟩ := hG a w ha
    rw [run_then h1]
    obtain ⟨sy, hs2, h2⟩ := run_more hb hE hG hv hs1
    exact ⟨sy, Or.inr hs2, h2⟩

theorem run_field (f : EntityField) (w : List Token) (h : FieldG f w) : ∃ s, (s = .f2 ∨ s = .f3) ∧ St.f0.run w = some s := by
  subst h
  rw [run_cons (s' := .f1) rfl, run_cons (s' := .f2) (by cases f.fieldType <;> rfl)]
  rcases f.fieldKey with _ | _ | _
  · exact ⟨.f2, Or.inl rfl, rfl⟩
  · exact ⟨.f3, Or.inr rfl, rfl⟩
  · exact ⟨.f3, Or.inr rfl, rfl⟩

theorem run_entry (x : ModuleEntry) (w : List Token) (h : EntryG implemented x w) : ∃ s, (s = .s4 ∨ s = .r5) ∧ St.s3.run w = some s := by
  cases h with
  | definition h =>
    obtain ⟨p, q, ws, r, hp, hi, _, rfl⟩ := h
    rw [run_cons (s' := .e1) rfl]
    have hp1 : ∀ t ∈ p, IsSeparator t := fun t ht => hp t (by simp [ht])
    have hq1 : ∀ t ∈ q, IsSeparator t := fun t ht => hp t (by simp [ht])
    have hr1 : ∀ t ∈ r, IsSeparator t := fun t ht => hp t (by simp [ht])
    have hbody : St.f0.run (q ++ (ws ++ (r ++ [.ctrl '}']))) = some .s4 := by
      rw [run_then (run_pads rfl hq1)]
      obtain ⟨s, hs, h1⟩ := run_items (b := .f0) (E := fun s => s = .f2 ∨ s = .f3) rfl (by rintro s (rfl | rfl) <;> rfl) run_field hi
      rw [run_then h1]
      have hs' : s.sep = some .f0 ∧ s.step (.ctrl '}') = some .s4 := by rcases hs with rfl | rfl | rfl <;> exact ⟨rfl, rfl⟩
      rcases run_pads' hs'.1 rfl hr1 with h2 | h2
      · rw [run_then h2]
        exact run_cons (s' := .s4) hs'.2 []
      · rw [run_then h2]; rfl
    refine ⟨.s4, Or.inl rfl, ?_⟩
    rcases run_pads' (s := .e1) rfl rfl hp1 with h2 | h2
    · rw [run_then h2, run_cons (s' := .f0) rfl]; exact hbody
    · rw [run_then h2, run_cons (s' := .f0) rfl]; exact hbody
  | relation h =>
    rename_i x
    obtain ⟨a, p, q, b, ha, hb, hp, rfl⟩ := h
    obtain ⟨pa, pb⟩ := x
    have hp1 : ∀ t ∈ p, IsSeparator t := fun t ht => hp t (by simp [ht])
    have hq1 : ∀ t ∈ q, IsSeparator t := fun t ht => hp t (by simp [ht])
    have hend : ∃ s, (s = .s4 ∨ s = .r5) ∧ St.r3.run (q ++ b) = some s := by
      rw [run_then (run_pads rfl hq1)]
      change DottedEnd pb b at hb
      cases hb with
      | field t f => exact ⟨.s4, Or.inl rfl, rfl⟩
      | entity t => exact ⟨.r5, Or.inr rfl, rfl⟩
    have hmid : ∀ s : St, s = .r1 ∨ s = .r2 → s.run (p ++ .edge :: (q ++ b)) = St.r3.run (q ++ b) := by
      intro s hs
      have hs' : s.sep = some .r2 := by rcases hs with rfl | rfl <;> rfl
      rcases run_pads' hs' rfl hp1 with h2 | h2
      · rw [run_then h2, run_cons (s' := .r3) (by rcases hs with rfl | rfl <;> rfl)]
      · rw [run_then h2, run_cons (s' := .r3) rfl]
    change DottedEnd pa a at ha
    cases ha with
    | field t f =>
      rw [run_then (s' := .r2) rfl, hmid _ (Or.inr rfl)]; exact hend
    | entity t =>
      rw [run_then (s' := .r1) rfl, hmid _ (Or.inl rfl)]; exact hend

theorem run_module {m : Module} {w : List Token} (h : ModuleG implemented m w) : St.s0.run w = some .acc := by
  obtain ⟨p, q, n, r, ws, u, v, hp, hn, hi, rfl⟩ := h
  have hp1 : ∀ t ∈ p, IsSeparator t := fun t ht => hp t (by simp [ht])
  have hq1 : ∀ t ∈ q, IsSeparator t := fun t ht => hp t (by simp [ht])
  have hr1 : ∀ t ∈ r, IsSeparator t := fun t ht => hp t (by simp [ht])
  have hu1 : ∀ t ∈ u, IsSeparator t := fun t ht => hp t (by simp [ht])
  have hv1 : ∀ t ∈ v, IsSeparator t := fun t ht => hp t (by simp [ht])
  rw [run_then (run_pads rfl hp1), run_cons (s' := .s1) rfl, run_then (run_pads rfl hq1)]
  have hbody : St.s3.run (r ++ (ws ++ (u ++ .ctrl '}' :: v))) = some .acc := by
    rw [run_then (run_pads rfl hr1)]
    obtain ⟨s, hs, h1⟩ := run_items (b := .s3) (E := fun s => s = .s4 ∨ s = .r5) rfl (by rintro s (rfl | rfl) <;> rfl) run_entry hi
    rw [run_then h1]
    have hs' : s.sep = some .s3 ∧ s.step (.ctrl '}') = some .acc := by rcases hs with rfl | rfl | rfl <;> exact ⟨rfl, rfl⟩
    rcases run_pads' hs'.1 rfl hu1 with h2 | h2
    · rw [run_then h2, run_cons (s' := .acc) hs'.2]; exact run_pads rfl hv1
    · rw [run_then h2, run_cons (s' := .acc) rfl]; exact run_pads rfl hv1
  generalize m.name = nm at hn
  cases hn with
  | none => rw [List.nil_append, run_cons (s' := .s3) rfl]; exact hbody
  | some s p hp =>
    rw [List.cons_append, run_cons (s' := .s2) rfl, run_then (run_pads rfl hp), run_cons (s' := .s3) rfl]
    exact hbody

theorem crash_run {s s' : St} {w : List Token} (h : s.run w = some s') (r : List Token) : crash s (w ++ r) = crash s' r := by
  induction w generalizing s with
  | nil => simp only [St.run, Option.some.injEq] at h; rw [h]; rfl
  | cons t w ih =>
    simp only [St.run] at h
    rcases hs : s.step t with _ | sx
    · simp [hs] at h
    · rw [hs] at h
      rw [List.cons_append, crash_cons hs]
      exact ih h

/-- The tokens before the place where the automaton stops can be read. -/
theorem crash_take (s : St) (ts : List Token) : s.run (ts.take (ts.length - (crash s ts).2)) = some (crash s ts).1 := by
  induction ts generalizing s with
  | nil => rfl
  | cons t ts ih =>
    rw [crash]
    rcases hs : s.step t with _ | sx
    · simp [St.run]
    · have h1 := crash_le sx ts
      have : (t :: ts).length - (crash sx ts).2 = ts.length - (crash sx ts).2 + 1 := by simp; omega
      simp only [this, List.take_succ_cons, St.run, hs, Option.bind_some]
      exact ih sx

/-- The token where the automaton stops cannot be read. -/
theorem crash_next (s : St) (ts : List Token) (h : 0 < (crash s ts).2) :
    ∃ t, ts[ts.length - (crash s ts).2]? = some t ∧ (crash s ts).1.step t = none := by
  induction ts generalizing s with
  | nil => simp [crash] at h
  | cons t ts ih =>
    rw [crash] at h ⊢
    rcases hs : s.step t with _ | sx
    · exact ⟨t, by simp, hs⟩
    · rw [hs] at h
      simp only at h
      obtain ⟨x, hx, hn⟩ := ih sx h
      have h1 := crash_le sx ts
      have : (t :: ts).length - (crash sx ts).2 = ts.length - (crash sx ts).2 + 1 := by simp; omega
      exact ⟨x, by simp only [this, List.getElem?_cons_succ]; exact hx, hn⟩

theorem run_acc {ts : List Token} (h : St.acc.run ts = some .acc) : ∀ t ∈ ts, IsSeparator t := by
  induction ts with
  | nil => simp
  | cons t ts ih =>
    simp only [St.run] at h
    rcases hs : St.acc.step t with _ | sx
    · simp [hs] at h
    · have hsep : isSep t = true := by
        have := (step_some .acc t).1 (by simp [hs])
        simpa [St.sep, St.opens, St.closes, St.dot, St.type, St.edge, St.erd, St.key, St.name] using this
      rw [step_isSep hsep] at hs
      have : sx = .acc := by simpa [St.sep] using hs.symm
      rw [step_isSep hsep, show St.acc.sep = some .acc from rfl] at h
      intro x hx
      rcases List.mem_cons.mp hx with rfl | hx
      · exact (isSep_iff _).1 hsep
      · exact ih h x hx

/-- Every state can still reach the end. -/
theorem exists_completion (s : St) : ∃ c, s.run c = some .acc := by
  cases s
  · exact ⟨[.erd, .ctrl '{', .ctrl '}'], rfl⟩
  · exact ⟨[.ctrl '{', .ctrl '}'], rfl⟩
  · exact ⟨[.ctrl '{', .ctrl '}'], rfl⟩
  · exact ⟨[.ctrl '}'], rfl⟩
  · exact ⟨[.ctrl '{', .ctrl '}', .ctrl '}'], rfl⟩
  · exact ⟨[.ctrl '{', .ctrl '}', .ctrl '}'], rfl⟩
  · exact ⟨[.ctrl '}', .ctrl '}'], rfl⟩
  · exact ⟨[.int, .ctrl '}', .ctrl '}'], rfl⟩
  · exact ⟨[.ctrl '}', .ctrl '}'], rfl⟩
  · exact ⟨[.ctrl '}', .ctrl '}'], rfl⟩
  · exact ⟨[.ctrl '}'], rfl⟩
  · exact ⟨[.edge, .ident [], .ctrl '.', .ctrl '}'], rfl⟩
  · exact ⟨[.edge, .ident [], .ctrl '.', .ctrl '}'], rfl⟩
  · exact ⟨[.ident [], .ctrl '.', .ctrl '}'], rfl⟩
  · exact ⟨[.ctrl '.', .ctrl '}'], rfl⟩
  · exact ⟨[.ctrl '}'], rfl⟩
  · exact ⟨[], rfl⟩

theorem module_pads {m : Module} {w v : List Token} (h : ModuleG implemented m w) (hv : ∀ t ∈ v, IsSeparator t) :
    ModuleG implemented m (w ++ v) := by
  obtain ⟨p, q, n, r, ws, u, v', hp, hn, hi, rfl⟩ := h
  refine ⟨p, q, n, r, ws, u, v' ++ v, ?_, hn, hi, by simp⟩
  intro t ht
  by_cases h : t ∈ v
  · exact hv t h
  · refine hp t ?_
    simp only [List.mem_append] at ht ⊢
    tauto

/-- What the automaton accepts is a sentence. -/
theorem module_of_run {w : List Token} (h : St.s0.run w = some .acc) : ∃ m, ModuleG implemented m w := by
  rcases hl : lModule w with e | ⟨m, alt, rest⟩
  · have hx := (module_error hl).1
    have := crash_run h []
    rw [List.append_nil] at this
    rw [this] at hx
    exact absurd rfl hx
  · have hp : pModule w = some (m, rest) := by rw [← lModule_erase, erase, hl]
    obtain ⟨v, rfl, hv⟩ := pModule_sound hp
    rw [run_then (run_module hv)] at h
    exact ⟨m, module_pads hv (run_acc h)⟩

/-- The automaton reads exactly the beginnings of sentences. -/
theorem viable_iff (w : List Token) : (∃ s, St.s0.run w = some s) ↔ ∃ m v, ModuleG implemented m (w ++ v) := by
  constructor
  · rintro ⟨s, hs⟩
    obtain ⟨c, hc⟩ := exists_completion s
    obtain ⟨m, hm⟩ := module_of_run (w := w ++ c) (by rw [run_then hs, hc])
    exact ⟨m, c, hm⟩
  · rintro ⟨m, v, h⟩
    have := run_module h
    rw [run_append] at this
    rcases hs : St.s0.run w with _ | s
    · simp [hs] at this
    · exact ⟨s, rfl⟩

end Seiren
