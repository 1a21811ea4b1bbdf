import Verif.Model.Syslog
import Verif.Lemma.Opts

/-
Property C58 (names of syslog facilities and priorities).
-/
namespace Conman
open Spec (sameName blankChar PriorityName FacilityName Written)

theorem tagLookup_some {s : List UInt8} (hs : (0 : UInt8) ∉ s) : ∀ (ts : List (List UInt8 × Int)), (∀ t ∈ ts, (0 : UInt8) ∉ t.1 ∧ 0 ≤ t.2) →
    (ts.Pairwise fun a b => ¬ sameName a.1 b.1) → ∀ v, tagLookup s ts = v ↔ (∃ t ∈ ts, sameName s t.1 ∧ v = t.2) ∨ (v = -1 ∧ ∀ t ∈ ts, ¬ sameName s t.1) := by
  intro ts
  induction ts with
  | nil => intro _ _ v; simp [tagLookup, eq_comm]
  | cons t ts ih =>
    intro h1 h2 v
    rw [List.pairwise_cons] at h2
    have := (strcasecmp_spec t.1 s (h1 t (by simp)).1 hs).2.1
    rw [tagLookup]
    by_cases c : strcasecmp t.1 s = 0
    · rw [if_pos c]
      have c' := this.1 c
      constructor
      · rintro rfl; exact Or.inl ⟨t, by simp, c'.symm, rfl⟩
      · rintro (⟨u, hu, g1, rfl⟩ | ⟨_, g⟩)
        · rcases List.mem_cons.1 hu with rfl | hu
          · rfl
          · exact absurd (c'.trans g1) (h2.1 u hu)
        · exact absurd c'.symm (g t (by simp))
    · rw [if_neg c, ih (fun u hu => h1 u (by simp [hu])) h2.2]
      have c' : ¬ sameName s t.1 := fun g => c (this.2 g.symm)
      simp only [List.mem_cons, exists_eq_or_imp, forall_eq_or_imp, c', false_and, false_or, not_false_eq_true, true_and]

theorem skip_spec (s : List UInt8) (hs : (0 : UInt8) ∉ s) : (0 : UInt8) ∉ s.dropWhile isSpace :=
  fun h => hs ((List.dropWhile_suffix isSpace).subset h)

/-- Names do not begin with white space, so what is skipped is all of it. -/
theorem written_iff {s name : List UInt8} (hn : ∀ c, (name.map Spec.downcase).head? = some c → ¬ blankChar c) (hne : name ≠ []) :
    Written s name ↔ sameName (s.dropWhile isSpace) name := by
  have hb : ∀ c : UInt8, isSpace c = true ↔ blankChar c := fun c =>
    byte_all (P := fun c => isSpace c = true ↔ blankChar c) (by decide +kernel) c
  constructor
  · rintro ⟨b, w, rfl, h1, h2⟩
    have e : (b ++ w).dropWhile isSpace = w := by
      induction b with
      | nil =>
        cases w with
        | nil => rfl
        | cons c w =>
          rw [List.nil_append, List.dropWhile_cons_of_neg]
          rw [hb]
          intro g
          have hh : (name.map Spec.downcase).head? = some (Spec.downcase c) := by
            rw [← show (c :: w).map Spec.downcase = name.map Spec.downcase from h2]; rfl
          refine hn _ hh ?_
          exact byte_all (P := fun c => blankChar c → blankChar (Spec.downcase c)) (by decide +kernel) c g
      | cons x b ih =>
        rw [List.cons_append, List.dropWhile_cons_of_pos ((hb x).2 (h1 x (by simp)))]
        exact ih (fun c hc => h1 c (by simp [hc]))
    rw [e]; exact h2
  · intro h
    refine ⟨s.takeWhile isSpace, s.dropWhile isSpace, List.takeWhile_append_dropWhile.symm, fun c hc => ?_, h⟩
    exact (hb c).1 (List.all_eq_true.1 List.all_takeWhile c hc)

/-- **C58.** The value of a priority is that of the name, which may be preceded by white space and written in upper or lower case; any other text is
refused. -/
theorem C58_priority (s : List UInt8) (hs : (0 : UInt8) ∉ s) (v : Int) :
    lookupPriority s = v ↔ (∃ name, Written s name ∧ PriorityName name v) ∨ (v = -1 ∧ ¬ ∃ name v', Written s name ∧ PriorityName name v') := by
  unfold lookupPriority
  rw [tagLookup_some (skip_spec s hs) logPriorities (by decide) (by decide)]
  have hw : ∀ name v, PriorityName name v → (Written s name ↔ sameName (s.dropWhile isSpace) name) := by
    intro name v h
    apply written_iff
    · cases h with
      | emerg h => rcases h with rfl | rfl | rfl <;> decide
      | alert => decide
      | crit h => rcases h with rfl | rfl <;> decide
      | err h => rcases h with rfl | rfl <;> decide
      | warning h => rcases h with rfl | rfl <;> decide
      | notice => decide
      | info => decide
      | debug => decide
    · cases h with
      | emerg h => rcases h with rfl | rfl | rfl <;> decide
      | alert => decide
      | crit h => rcases h with rfl | rfl <;> decide
      | err h => rcases h with rfl | rfl <;> decide
      | warning h => rcases h with rfl | rfl <;> decide
      | notice => decide
      | info => decide
      | debug => decide
  have ht : ∀ name v, (name, v) ∈ logPriorities ↔ PriorityName name v := by
    intro name v
    constructor
    · intro h
      simp only [logPriorities, List.mem_cons, Prod.mk.injEq, List.not_mem_nil, or_false] at h
      rcases h with ⟨rfl, rfl⟩ | ⟨rfl, rfl⟩ | ⟨rfl, rfl⟩ | ⟨rfl, rfl⟩ | ⟨rfl, rfl⟩ | ⟨rfl, rfl⟩ | ⟨rfl, rfl⟩ | ⟨rfl, rfl⟩ | ⟨rfl, rfl⟩ | ⟨rfl, rfl⟩ | ⟨rfl, rfl⟩ |
        ⟨rfl, rfl⟩ | ⟨rfl, rfl⟩
      · exact .alert
      · exact .crit (Or.inl rfl)
      · exact .crit (Or.inr rfl)
      · exact .debug
      · exact .emerg (Or.inl rfl)
      · exact .emerg (Or.inr (Or.inl rfl))
      · exact .err (Or.inl rfl)
      · exact .err (Or.inr rfl)
      · exact .info
      · exact .notice
      · exact .emerg (Or.inr (Or.inr rfl))
      · exact .warning (Or.inl rfl)
      · exact .warning (Or.inr rfl)
    · intro h
      cases h with
      | emerg h => rcases h with rfl | rfl | rfl <;> decide
      | alert => decide
      | crit h => rcases h with rfl | rfl <;> decide
      | err h => rcases h with rfl | rfl <;> decide
      | warning h => rcases h with rfl | rfl <;> decide
      | notice => decide
      | info => decide
      | debug => decide
  constructor
  · rintro (⟨t, h1, h2, rfl⟩ | ⟨rfl, h⟩)
    · exact Or.inl ⟨t.1, (hw _ _ ((ht _ _).1 h1)).2 h2, (ht _ _).1 h1⟩
    · exact Or.inr ⟨rfl, fun ⟨name, v', g1, g2⟩ => h (name, v') ((ht _ _).2 g2) ((hw _ _ g2).1 g1)⟩
  · rintro (⟨name, h1, h2⟩ | ⟨rfl, h⟩)
    · exact Or.inl ⟨(name, v), (ht _ _).2 h2, (hw _ _ h2).1 h1, rfl⟩
    · exact Or.inr ⟨rfl, fun t h1 h2 => h ⟨t.1, t.2, (hw _ _ ((ht _ _).1 h1)).2 h2, (ht _ _).1 h1⟩⟩

/-- **C58.** The value of a facility is eight times the number of the name; any other text is refused. -/
theorem C58_facility (s : List UInt8) (hs : (0 : UInt8) ∉ s) (v : Int) :
    lookupFacility s = v ↔ (∃ name n, Written s name ∧ FacilityName name n ∧ v = 8 * (n : Int)) ∨ (v = -1 ∧ ¬ ∃ name n, Written s name ∧ FacilityName name n) := by
  unfold lookupFacility
  rw [tagLookup_some (skip_spec s hs) logFacilities (by decide) (by decide)]
  have hloc : ∀ k : Fin 8, (bs "local" ++ [0x30 + UInt8.ofNat k.1], (8 * (16 + k.1 : Nat) : Int)) ∈ logFacilities := by decide
  have hw : ∀ name v, FacilityName name v → (Written s name ↔ sameName (s.dropWhile isSpace) name) := by
    intro name v h
    apply written_iff
    · cases h with
      | loc k hk => intro c hc; simp [bs] at hc; subst hc; decide
      | _ => decide
    · cases h with
      | loc k hk => simp
      | _ => decide
  have ht : ∀ name v, (name, v) ∈ logFacilities ↔ ∃ n, FacilityName name n ∧ v = 8 * (n : Int) := by
    intro name v
    constructor
    · intro h
      simp only [logFacilities, List.mem_cons, Prod.mk.injEq, List.not_mem_nil, or_false] at h
      rcases h with ⟨rfl, rfl⟩ | ⟨rfl, rfl⟩ | ⟨rfl, rfl⟩ | ⟨rfl, rfl⟩ | ⟨rfl, rfl⟩ | ⟨rfl, rfl⟩ | ⟨rfl, rfl⟩ | ⟨rfl, rfl⟩ | ⟨rfl, rfl⟩ | ⟨rfl, rfl⟩ | ⟨rfl, rfl⟩ |
        ⟨rfl, rfl⟩ | ⟨rfl, rfl⟩ | ⟨rfl, rfl⟩ | ⟨rfl, rfl⟩ | ⟨rfl, rfl⟩ | ⟨rfl, rfl⟩ | ⟨rfl, rfl⟩
      · exact ⟨_, .auth, rfl⟩
      · exact ⟨_, .authpriv, rfl⟩
      · exact ⟨_, .cron, rfl⟩
      · exact ⟨_, .daemon, rfl⟩
      · exact ⟨_, .kern, rfl⟩
      · exact ⟨_, .lpr, rfl⟩
      · exact ⟨_, .mail, rfl⟩
      · exact ⟨_, .news, rfl⟩
      · exact ⟨_, .user, rfl⟩
      · exact ⟨_, .uucp, rfl⟩
      · exact ⟨_, .loc 0 (by omega), rfl⟩
      · exact ⟨_, .loc 1 (by omega), rfl⟩
      · exact ⟨_, .loc 2 (by omega), rfl⟩
      · exact ⟨_, .loc 3 (by omega), rfl⟩
      · exact ⟨_, .loc 4 (by omega), rfl⟩
      · exact ⟨_, .loc 5 (by omega), rfl⟩
      · exact ⟨_, .loc 6 (by omega), rfl⟩
      · exact ⟨_, .loc 7 (by omega), rfl⟩
    · rintro ⟨n, h, rfl⟩
      cases h with
      | loc k hk => exact hloc ⟨k, hk⟩
      | _ => decide
  constructor
  · rintro (⟨t, h1, h2, rfl⟩ | ⟨rfl, h⟩)
    · obtain ⟨n, g1, g2⟩ := (ht _ _).1 h1
      exact Or.inl ⟨t.1, n, (hw _ _ g1).2 h2, g1, g2⟩
    · exact Or.inr ⟨rfl, fun ⟨name, n, g1, g2⟩ => h (name, 8 * (n : Int)) ((ht _ _).2 ⟨n, g2, rfl⟩) ((hw _ _ g2).1 g1)⟩
  · rintro (⟨name, n, h1, h2, rfl⟩ | ⟨rfl, h⟩)
    · exact Or.inl ⟨(name, 8 * (n : Int)), (ht _ _).2 ⟨n, h2, rfl⟩, (hw _ _ h2).1 h1, rfl⟩
    · exact Or.inr ⟨rfl, fun t h1 h2 => by
        obtain ⟨n, g1, _⟩ := (ht _ _).1 h1
        exact h ⟨t.1, n, (hw _ _ g1).2 h2, g1⟩⟩

/-- **C58.** A facility that was accepted is used by a daemon in the background exactly if its number is not 0. -/
theorem C58_used_partial (s : List UInt8) (hs : (0 : UInt8) ∉ s) (name : List UInt8) (n : Nat) (h1 : Written s name) (h2 : FacilityName name n) :
    syslogUsed (lookupFacility s) = decide (n ≠ 0) := by
  have : lookupFacility s = 8 * (n : Int) := (C58_facility s hs _).2 (Or.inl ⟨name, n, h1, h2, rfl⟩)
  rw [this]
  unfold syslogUsed
  by_cases h : n = 0
  · subst h; decide
  · simp only [h, ne_eq, not_false_eq_true, decide_true, decide_eq_true_eq]; omega

/-- **C58, finding.** The facility `kern` is accepted, but syslog is not turned on. -/
theorem C58_kern_ignored : lookupFacility (bs "kern") = 0 ∧ syslogUsed (lookupFacility (bs "kern")) = false := by decide +kernel

/-- C58 on cases. -/
example : lookupPriority (bs " \tWarn") = 4 ∧ lookupPriority (bs "warn ") = -1 ∧ lookupFacility (bs "LOCAL3") = 152 ∧ lookupFacility (bs "ftp") = -1 ∧
    Written (bs " \tWarn") (bs "warn") := ⟨by decide +kernel, by decide +kernel, by decide +kernel, by decide +kernel, bs " \t", bs "Warn", rfl, by decide, by decide⟩

end Conman
