import Verif.Model.ClientArgs
import Verif.Lemma.Dec

/-
Lemmas about the command line of the client.
-/
namespace Conman
open Spec

theorem optWord_flags {cs t : List UInt8} (h : ∀ c ∈ cs, c ∈ cFlags) : optWord (cs ++ t) = (cs.map .flag ++ (optWord t).1, (optWord t).2) := by
  induction cs with
  | nil => rfl
  | cons c cs ih =>
    have hc : c ∈ bs "bfhjLmqQrvV" := h c (by simp)
    rw [List.cons_append, optWord, if_pos hc, ih fun x hx => h x (by simp [hx])]
    rfl

theorem optWord_arg {c : UInt8} {v : List UInt8} (h : c ∈ cArgs) : optWord (c :: v) = ([], if v = [] then .wants c else .attached c v) := by
  have h1 : c ∉ bs "bfhjLmqQrvV" := by
    have : ∀ c ∈ cArgs, c ∉ bs "bfhjLmqQrvV" := by decide
    exact this c h
  rw [optWord, if_neg h1, if_pos (show c ∈ bs "deFl" from h)]
  split <;> rfl

theorem optWord_cases (s : List UInt8) : ∃ cs, (∀ c ∈ cs, c ∈ cFlags) ∧ (optWord s).1 = cs.map .flag ∧
    match (optWord s).2 with
    | .done => s = cs
    | .attached c v => s = cs ++ c :: v ∧ c ∈ cArgs ∧ v ≠ []
    | .wants c => s = cs ++ [c] ∧ c ∈ cArgs
    | .bad c => ∃ v, s = cs ++ c :: v ∧ c ∉ cFlags ∧ c ∉ cArgs := by
  induction s with
  | nil => exact ⟨[], by simp, rfl, rfl⟩
  | cons c s ih =>
    by_cases h1 : c ∈ bs "bfhjLmqQrvV"
    · obtain ⟨cs, a, b, d⟩ := ih
      refine ⟨c :: cs, ?_, ?_, ?_⟩
      · intro x hx
        rcases List.mem_cons.mp hx with e | e
        · rw [e]; exact h1
        · exact a x e
      · rw [optWord, if_pos h1, b]; rfl
      · rw [optWord, if_pos h1]
        revert d
        show (match (optWord s).2 with
          | .done => s = cs
          | .attached c v => s = cs ++ c :: v ∧ c ∈ cArgs ∧ v ≠ []
          | .wants c => s = cs ++ [c] ∧ c ∈ cArgs
          | .bad c => ∃ v, s = cs ++ c :: v ∧ c ∉ cFlags ∧ c ∉ cArgs) → match (optWord s).2 with
          | .done => c :: s = c :: cs
          | .attached x v => c :: s = c :: cs ++ x :: v ∧ x ∈ cArgs ∧ v ≠ []
          | .wants x => c :: s = c :: cs ++ [x] ∧ x ∈ cArgs
          | .bad x => ∃ v, c :: s = c :: cs ++ x :: v ∧ x ∉ cFlags ∧ x ∉ cArgs
        cases (optWord s).2 with
        | done => intro d; simp only at d ⊢; rw [d]
        | attached x v => intro d; simp only at d ⊢; exact ⟨by rw [d.1]; rfl, d.2⟩
        | wants x => intro d; simp only at d ⊢; exact ⟨by rw [d.1]; rfl, d.2⟩
        | bad x => intro d; simp only at d ⊢; obtain ⟨v, d1, d2⟩ := d; exact ⟨v, by rw [d1]; rfl, d2⟩
    · by_cases h2 : c ∈ bs "deFl"
      · refine ⟨[], by simp, ?_, ?_⟩
        · rw [optWord_arg h2]; rfl
        · rw [optWord_arg h2]
          by_cases e : s = []
          · rw [if_pos e]; exact ⟨by rw [e]; rfl, h2⟩
          · rw [if_neg e]; exact ⟨rfl, h2, e⟩
      · refine ⟨[], by simp, ?_, ?_⟩
        · rw [optWord, if_neg h1, if_neg h2]; rfl
        · rw [optWord, if_neg h1, if_neg h2]; exact ⟨s, rfl, h1, h2⟩

/-- Words of options. -/
theorem isOpt_iff (a : List UInt8) : (a.head? = some 0x2D ∧ a ≠ bs "-") ↔ ¬ isOperand a := by
  unfold isOperand
  constructor
  · rintro ⟨h1, h2⟩ (h | h)
    · exact h2 h
    · exact h h1
  · intro h
    refine ⟨?_, fun e => h (Or.inl e)⟩
    rcases Decidable.em (a.head? = some 0x2D) with e | e
    · exact e
    · exact absurd (Or.inr e) h

theorem dash_cons {a : List UInt8} (h : a.head? = some 0x2D) : a = 0x2D :: a.drop 1 := by
  cases a with
  | nil => cases h
  | cons c s => simp only [List.head?_cons, Option.some.injEq] at h; rw [h]; rfl

theorem getopt_sound (n : Nat) : ∀ args : List (List UInt8), args.length ≤ n → (getopt args).bad = none → ArgWords args (getopt args).opts (getopt args).operands := by
  induction n with
  | zero =>
    intro args h _
    cases args with
    | nil => exact .nil
    | cons a r => simp at h
  | succ n ih =>
    intro args hl hb
    cases args with
    | nil => exact .nil
    | cons a r =>
      have hr : r.length ≤ n := by simpa using hl
      rw [getopt] at hb ⊢
      by_cases h1 : a = bs "--"
      · rw [if_pos h1] at hb ⊢
        rw [h1]; exact .stop r
      · rw [if_neg h1] at hb ⊢
        by_cases h2 : a.head? = some 0x2D ∧ a ≠ bs "-"
        · rw [if_pos h2] at hb ⊢
          have ea := dash_cons h2.1
          obtain ⟨cs, q1, q2, q3⟩ := optWord_cases (a.drop 1)
          revert hb q3
          cases (optWord (a.drop 1)).2 with
          | done =>
            intro hb q3
            simp only at hb q3 ⊢
            have ne : cs ≠ [] := by
              intro e
              rw [e] at q3
              rw [q3] at ea
              exact h2.2 ea
            have := ArgWords.flags cs r _ _ ne q1 (ih r hr hb)
            rw [ea, q3]
            rw [q3] at q2
            unfold GetoptRes.pre
            simp only [List.drop_succ_cons, List.drop_zero]
            rw [q2]
            exact this
          | attached c v =>
            intro hb q3
            simp only at hb q3 ⊢
            have := ArgWords.attached cs c v r _ _ q1 q3.2.1 q3.2.2 (ih r hr hb)
            rw [← q3.1, ← ea] at this
            unfold GetoptRes.pre
            rw [q2]
            simp only [List.append_assoc, List.cons_append, List.nil_append]
            exact this
          | wants c =>
            intro hb q3
            cases r with
            | nil => simp at hb
            | cons v r =>
              simp only at hb q3 ⊢
              have := ArgWords.separate cs c v r _ _ q1 q3.2 (ih r (by simp at hr; omega) hb)
              rw [← q3.1, ← ea] at this
              unfold GetoptRes.pre
              rw [q2]
              simp only [List.append_assoc, List.cons_append, List.nil_append]
              exact this
          | bad c => intro hb; simp at hb
        · rw [if_neg h2] at hb ⊢
          have h3 : isOperand a := by
            have := (not_congr (isOpt_iff a)).mp h2
            exact Decidable.of_not_not this
          exact .operand a r _ _ h3 (ih r hr hb)

theorem not_operand_dash {s : List UInt8} (h : s ≠ []) : (0x2D :: s).head? = some (0x2D : UInt8) ∧ (0x2D :: s) ≠ bs "-" := by
  refine ⟨rfl, fun e => h ?_⟩
  have : (0x2D :: s : List UInt8) = [0x2D] := e
  simpa using this

theorem flag_not_dash : ∀ c ∈ cFlags, c ≠ 0x2D := by decide
theorem arg_not_dash : ∀ c ∈ cArgs, c ≠ 0x2D := by decide

theorem getopt_complete {args os ps} (h : ArgWords args os ps) : getopt args = ⟨os, ps, none⟩ := by
  induction h with
  | nil => rfl
  | stop r => rw [getopt, if_pos rfl]
  | operand a r os ps ha _ ih =>
    have h1 : a ≠ bs "--" := by
      intro e
      rw [e] at ha
      exact absurd ha (by decide)
    have h2 : ¬ (a.head? = some 0x2D ∧ a ≠ bs "-") := fun g => (isOpt_iff a).mp g ha
    rw [getopt, if_neg h1, if_neg h2, ih]
  | flags cs r os ps ne hc _ ih =>
    have h1 : (0x2D :: cs) ≠ bs "--" := by
      intro e
      have : (0x2D :: cs : List UInt8) = [0x2D, 0x2D] := e
      simp only [List.cons.injEq, true_and] at this
      exact flag_not_dash 0x2D (hc _ (by rw [this]; simp)) rfl
    have q := @optWord_flags cs [] hc
    rw [List.append_nil] at q
    rw [getopt, if_neg h1, if_pos (not_operand_dash ne), List.drop_succ_cons, List.drop_zero, q, ih]
    simp [optWord, GetoptRes.pre]
  | attached cs c v r os ps hc hx hv _ ih =>
    have h1 : (0x2D :: (cs ++ c :: v)) ≠ bs "--" := by
      intro e
      have : (0x2D :: (cs ++ c :: v) : List UInt8) = [0x2D, 0x2D] := e
      simp only [List.cons.injEq, true_and] at this
      cases cs with
      | nil => simp only [List.nil_append, List.cons.injEq] at this; exact arg_not_dash c hx this.1
      | cons x cs => simp only [List.cons_append, List.cons.injEq] at this; exact flag_not_dash x (hc x (by simp)) this.1
    rw [getopt, if_neg h1, if_pos (not_operand_dash (by simp)), List.drop_succ_cons, List.drop_zero, optWord_flags hc, optWord_arg hx, if_neg hv, ih]
    simp [GetoptRes.pre]
  | separate cs c v r os ps hc hx _ ih =>
    have h1 : (0x2D :: (cs ++ [c])) ≠ bs "--" := by
      intro e
      have : (0x2D :: (cs ++ [c]) : List UInt8) = [0x2D, 0x2D] := e
      simp only [List.cons.injEq, true_and] at this
      cases cs with
      | nil => simp only [List.nil_append, List.cons.injEq] at this; exact arg_not_dash c hx this.1
      | cons x cs => simp only [List.cons_append, List.cons.injEq] at this; exact flag_not_dash x (hc x (by simp)) this.1
    rw [getopt, if_neg h1, if_pos (not_operand_dash (by simp)), List.drop_succ_cons, List.drop_zero, optWord_flags hc, optWord_arg hx, if_pos rfl]
    simp only [ih]
    simp [GetoptRes.pre]

/-! ### Names separated by commas -/

theorem pieces_ne (x : UInt8) (s : List UInt8) : pieces x s ≠ [] := by
  induction s with
  | nil => simp [pieces]
  | cons c s ih =>
    rw [pieces]
    split
    · simp
    · split <;> simp

theorem pieces_eq (x : UInt8) (s : List UInt8) : pieces x s = s.takeWhile (· ≠ x) :: (if x ∈ s then pieces x ((s.dropWhile (· ≠ x)).drop 1) else []) := by
  induction s with
  | nil => simp [pieces]
  | cons c s ih =>
    rw [pieces]
    by_cases h : c = x
    · rw [if_pos h]
      simp [h]
    · rw [if_neg h, ih]
      have h' : x ≠ c := fun e => h e.symm
      simp [h, h']

theorem commaLoop_eq (n : Nat) : ∀ s : List UInt8, s.length < n → commaLoop n s = commaNames s := by
  induction n with
  | zero => intro s h; omega
  | succ n ih =>
    intro s h
    rw [commaLoop]
    unfold commaNames
    rw [pieces_eq]
    by_cases hc : (0x2C : UInt8) ∈ s
    · rw [if_pos hc, if_pos hc]
      have hl : ((s.dropWhile (· ≠ 0x2C)).drop 1).length < n := by
        have h0 : s ≠ [] := by rintro rfl; simp at hc
        have h1 : 0 < s.length := List.length_pos_iff.mpr h0
        have h2 := (List.dropWhile_sublist (l := s) (· ≠ 0x2C)).length_le
        rw [List.length_drop]
        omega
      rw [ih _ hl]
      unfold commaNames
      by_cases e : s.takeWhile (· ≠ 0x2C) = []
      · rw [e]; simp
      · simp only [e, ne_eq, not_false_eq_true, if_true, List.cons_append, List.nil_append]
        rw [List.filter_cons_of_pos (by simp only [decide_eq_true_eq]; exact e)]
    · rw [if_neg hc, if_neg hc]
      by_cases e : s.takeWhile (· ≠ 0x2C) = []
      · rw [e]; simp
      · simp only [e, ne_eq, not_false_eq_true, if_true, List.append_nil]
        rw [List.filter_cons_of_pos (by simp only [decide_eq_true_eq]; exact e)]
        rfl

/-! ### Files of names -/

theorem blank_eq (c : UInt8) : blankByte c = isSpace c := by
  have : ∀ i : Fin 256, blankByte (UInt8.ofNat i.val) = isSpace (UInt8.ofNat i.val) := by decide +kernel
  have h := this ⟨c.toNat, c.toNat_lt⟩
  simpa using h

theorem blank_fun : blankByte = isSpace := funext blank_eq

theorem ltrim_eq {s : List UInt8} (h : ∀ c, s.getLast? = some c → isSpace c = false) : ltrim s = s.dropWhile isSpace := by
  induction s with
  | nil => rfl
  | cons c s ih =>
    cases s with
    | nil =>
      have := h c (by simp)
      simp [ltrim, List.dropWhile, this]
    | cons d s =>
      rw [ltrim]
      have h' := ih fun x hx => h x (by rw [List.getLast?_cons_cons]; exact hx)
      by_cases e : isSpace c
      · rw [if_pos e, h', List.dropWhile_cons_of_pos e]
      · rw [if_neg e, List.dropWhile_cons_of_neg e]

theorem rtrim_last (s : List UInt8) (c : UInt8) (h : (rtrim s).getLast? = some c) : isSpace c = false := by
  unfold rtrim at h
  rw [List.getLast?_reverse] at h
  have := List.head?_dropWhile_not isSpace s.reverse
  rw [h] at this
  simpa using this

/-- Both ends, in any order. -/
theorem trim_comm (s : List UInt8) : (rtrim s).dropWhile isSpace = rtrim (s.dropWhile isSpace) := by
  induction s with
  | nil => rfl
  | cons c s ih =>
    by_cases e : isSpace c
    · rw [List.dropWhile_cons_of_pos e, ← ih]
      unfold rtrim
      rw [List.reverse_cons, List.dropWhile_append]
      by_cases g : (s.reverse.dropWhile isSpace).isEmpty
      · rw [if_pos g]
        have : s.reverse.dropWhile isSpace = [] := by simpa using g
        rw [this, List.dropWhile_cons_of_pos e]
        rfl
      · rw [if_neg g, List.reverse_append, List.reverse_singleton, List.singleton_append, List.dropWhile_cons_of_pos e]
    · rw [List.dropWhile_cons_of_neg e]
      have : ∃ t, rtrim (c :: s) = c :: t := by
        unfold rtrim
        rw [List.reverse_cons, List.dropWhile_append]
        by_cases g : (s.reverse.dropWhile isSpace).isEmpty
        · rw [if_pos g, List.dropWhile_cons_of_neg e]; exact ⟨[], rfl⟩
        · rw [if_neg g, List.reverse_append]; exact ⟨_, rfl⟩
      obtain ⟨t, ht⟩ := this
      rw [ht, List.dropWhile_cons_of_neg e]

theorem trim_eq (s : List UInt8) : ltrim (rtrim s) = strip s := by
  rw [ltrim_eq (rtrim_last s), trim_comm]
  unfold strip rtrim
  rw [blank_fun]

theorem takeWhile_every {p : UInt8 → Bool} {s : List UInt8} (h : ∀ c ∈ s, p c = true) : s.takeWhile p = s ∧ s.dropWhile p = [] := by
  induction s with
  | nil => exact ⟨rfl, rfl⟩
  | cons c s ih =>
    have hc := h c (by simp)
    have := ih fun x hx => h x (by simp [hx])
    rw [List.takeWhile_cons_of_pos hc, List.dropWhile_cons_of_pos hc, this.1, this.2]
    exact ⟨rfl, rfl⟩

theorem takeWhile_nul {s : List UInt8} (h : (0 : UInt8) ∉ s) : s.takeWhile (· ≠ 0) = s := by
  refine (takeWhile_every fun c hc => ?_).1
  have : c ≠ 0 := fun e => h (e ▸ hc)
  simpa using this

theorem fileLine_eq {s : List UInt8} (h : (0 : UInt8) ∉ s) : fileLine s = [strip s].filter fun l => l ≠ [] ∧ l.head? ≠ some 0x23 := by
  unfold fileLine
  rw [takeWhile_nul h, trim_eq]
  by_cases h1 : (strip s).head? = some 0x23
  · simp [h1]
  · by_cases h2 : strip s = []
    · simp [h2]
    · simp [h1, h2]

/-- What one call takes: a line with its newline if it is short. -/
theorem fgetsTake_line : ∀ (n : Nat) (s : List UInt8), (s.takeWhile (· ≠ 0x0A)).length < n ∨ ((s.takeWhile (· ≠ 0x0A)).length ≤ n ∧ 0x0A ∉ s) →
    fgetsTake n s = s.takeWhile (· ≠ 0x0A) ++ (if 0x0A ∈ s then [0x0A] else []) ∧
    s.drop (fgetsTake n s).length = (s.dropWhile (· ≠ 0x0A)).drop 1 := by
  intro n
  induction n with
  | zero =>
    intro s h
    rcases h with h | ⟨h, h2⟩
    · omega
    · have : s.takeWhile (· ≠ 0x0A) = s := by
        refine (takeWhile_every fun c hc => ?_).1
        have : c ≠ 0x0A := fun e => h2 (e ▸ hc)
        simpa using this
      rw [this] at h
      have : s = [] := List.eq_nil_of_length_eq_zero (by omega)
      rw [this]
      simp [fgetsTake]
  | succ n ih =>
    intro s h
    cases s with
    | nil => simp [fgetsTake]
    | cons c s =>
      rw [fgetsTake]
      by_cases e : c = 0x0A
      · rw [if_pos e]
        simp [e]
      · rw [if_neg e]
        have e' : (0x0A : UInt8) ≠ c := fun g => e g.symm
        have := ih s (by
          simp only [ne_eq, List.takeWhile_cons, e, not_false_eq_true, decide_true, if_true, List.length_cons, List.mem_cons, e', false_or] at h
          simp only [ne_eq]
          rcases h with h | ⟨h, h2⟩
          · exact Or.inl (by omega)
          · exact Or.inr ⟨by omega, h2⟩)
        obtain ⟨q1, q2⟩ := this
        constructor
        · rw [q1]
          simp [e, e']
        · rw [List.length_cons, List.drop_succ_cons, q2]
          simp [e]

theorem strip_nl {s : List UInt8} : strip (s ++ [0x0A]) = strip s := by
  rw [← trim_eq, ← trim_eq]
  congr 1
  unfold rtrim
  rw [List.reverse_append, List.reverse_singleton, List.singleton_append, List.dropWhile_cons_of_pos (by decide)]

theorem readNames_eq (n : Nat) : ∀ s : List UInt8, s.length < n → (0 : UInt8) ∉ s → (∀ l ∈ pieces 0x0A s, l.length ≤ maxLine - 2) → readNames n s = fileNames s := by
  induction n with
  | zero => intro s h; omega
  | succ n ih =>
    intro s h h0 hl
    rw [readNames]
    by_cases hs : s = []
    · rw [if_pos hs, hs]
      decide
    · rw [if_neg hs]
      have hp := pieces_eq 0x0A s
      have h1 : (s.takeWhile (· ≠ 0x0A)).length ≤ maxLine - 2 := hl _ (by rw [hp]; simp)
      have hm : maxLine = 1024 := rfl
      obtain ⟨q1, q2⟩ := fgetsTake_line (maxLine - 1) s (Or.inl (by omega))
      have hlt : (s.drop (fgetsTake (maxLine - 1) s).length).length < n := by
        rw [q2, List.length_drop]
        have := (List.dropWhile_sublist (l := s) (· ≠ 0x0A)).length_le
        have : 0 < s.length := List.length_pos_iff.mpr hs
        omega
      have hn0 : (0 : UInt8) ∉ fgetsTake (maxLine - 1) s := by
        rw [q1]
        intro hx
        rcases List.mem_append.mp hx with g | g
        · exact h0 ((List.takeWhile_sublist _).subset g)
        · split at g
          · simp at g
          · simp at g
      have hline : strip (fgetsTake (maxLine - 1) s) = strip (s.takeWhile (· ≠ 0x0A)) := by
        rw [q1]
        split
        · exact strip_nl
        · rw [List.append_nil]
      rw [fileLine_eq hn0, hline]
      unfold fileNames
      rw [hp]
      by_cases hc : (0x0A : UInt8) ∈ s
      · have hl' : ∀ l ∈ pieces 0x0A ((s.dropWhile (· ≠ 0x0A)).drop 1), l.length ≤ maxLine - 2 := by
          intro l hx
          exact hl l (by rw [hp, if_pos hc]; exact List.mem_cons_of_mem _ hx)
        have hd : (0 : UInt8) ∉ s.drop (fgetsTake (maxLine - 1) s).length := fun hx => h0 ((List.drop_sublist _ _).subset hx)
        rw [if_pos hc, List.map_cons, ih _ hlt hd (by rw [q2]; exact hl'), q2]
        exact (List.filter_append (p := fun l : List UInt8 => decide (l ≠ [] ∧ l.head? ≠ some 0x23)) [strip (s.takeWhile (· ≠ 0x0A))] _).symm
      · rw [if_neg hc]
        have : s.drop (fgetsTake (maxLine - 1) s).length = [] := by
          rw [q2]
          have : s.dropWhile (· ≠ 0x0A) = [] := by
            refine (takeWhile_every fun c hx => ?_).2
            have : c ≠ 0x0A := fun e => hc (e ▸ hx)
            simpa using this
          rw [this]; rfl
        rw [this]
        have hr : readNames n [] = [] := by
          cases n with
          | zero => rfl
          | succ n => rw [readNames, if_pos rfl]
        rw [hr]
        simp

end Conman
