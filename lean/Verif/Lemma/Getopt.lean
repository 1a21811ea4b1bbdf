import Verif.Model.Getopt
import Verif.Lemma.ClientArgs

/-
Lemmas about `getopt` with any string of options.
-/
namespace Conman
open Spec

variable {fl ar : List UInt8}

/-- No option is both with and without argument, and none is a dash. -/
structure OptTab (fl ar : List UInt8) : Prop where
  disj : ∀ c ∈ ar, c ∉ fl
  flDash : ∀ c ∈ fl, c ≠ 0x2D
  arDash : ∀ c ∈ ar, c ≠ 0x2D

theorem gWord_flags {cs t : List UInt8} (h : ∀ c ∈ cs, c ∈ fl) : gWord fl ar (cs ++ t) = (cs.map .flag ++ (gWord fl ar t).1, (gWord fl ar t).2) := by
  induction cs with
  | nil => rfl
  | cons c cs ih =>
    have hc : c ∈ fl := h c (by simp)
    rw [List.cons_append, gWord, if_pos hc, ih fun x hx => h x (by simp [hx])]
    rfl

theorem gWord_arg (T : OptTab fl ar) {c : UInt8} {v : List UInt8} (h : c ∈ ar) : gWord fl ar (c :: v) = ([], if v = [] then .wants c else .attached c v) := by
  have h1 : c ∉ fl := T.disj c h
  rw [gWord, if_neg h1, if_pos (show c ∈ ar from h)]
  split <;> rfl

theorem gWord_cases (T : OptTab fl ar) (s : List UInt8) : ∃ cs, (∀ c ∈ cs, c ∈ fl) ∧ (gWord fl ar s).1 = cs.map .flag ∧
    match (gWord fl ar s).2 with
    | .done => s = cs
    | .attached c v => s = cs ++ c :: v ∧ c ∈ ar ∧ v ≠ []
    | .wants c => s = cs ++ [c] ∧ c ∈ ar
    | .bad c => ∃ v, s = cs ++ c :: v ∧ c ∉ fl ∧ c ∉ ar := by
  induction s with
  | nil => exact ⟨[], by simp, rfl, rfl⟩
  | cons c s ih =>
    by_cases h1 : c ∈ fl
    · obtain ⟨cs, a, b, d⟩ := ih
      refine ⟨c :: cs, ?_, ?_, ?_⟩
      · intro x hx
        rcases List.mem_cons.mp hx with e | e
        · rw [e]; exact h1
        · exact a x e
      · rw [gWord, if_pos h1, b]; rfl
      · rw [gWord, if_pos h1]
        revert d
        show (match (gWord fl ar s).2 with
          | .done => s = cs
          | .attached c v => s = cs ++ c :: v ∧ c ∈ ar ∧ v ≠ []
          | .wants c => s = cs ++ [c] ∧ c ∈ ar
          | .bad c => ∃ v, s = cs ++ c :: v ∧ c ∉ fl ∧ c ∉ ar) → match (gWord fl ar s).2 with
          | .done => c :: s = c :: cs
          | .attached x v => c :: s = c :: cs ++ x :: v ∧ x ∈ ar ∧ v ≠ []
          | .wants x => c :: s = c :: cs ++ [x] ∧ x ∈ ar
          | .bad x => ∃ v, c :: s = c :: cs ++ x :: v ∧ x ∉ fl ∧ x ∉ ar
        cases (gWord fl ar s).2 with
        | done => intro d; simp only at d ⊢; rw [d]
        | attached x v => intro d; simp only at d ⊢; exact ⟨by rw [d.1]; rfl, d.2⟩
        | wants x => intro d; simp only at d ⊢; exact ⟨by rw [d.1]; rfl, d.2⟩
        | bad x => intro d; simp only at d ⊢; obtain ⟨v, d1, d2⟩ := d; exact ⟨v, by rw [d1]; rfl, d2⟩
    · by_cases h2 : c ∈ ar
      · refine ⟨[], by simp, ?_, ?_⟩
        · rw [gWord_arg T h2]; rfl
        · rw [gWord_arg T h2]
          by_cases e : s = []
          · rw [if_pos e]; exact ⟨by rw [e]; rfl, h2⟩
          · rw [if_neg e]; exact ⟨rfl, h2, e⟩
      · refine ⟨[], by simp, ?_, ?_⟩
        · rw [gWord, if_neg h1, if_neg h2]; rfl
        · rw [gWord, if_neg h1, if_neg h2]; exact ⟨s, rfl, h1, h2⟩

/-- Every command line either means something or has a first word that is not valid. -/
theorem gGetopt_sound (T : OptTab fl ar) (n : Nat) : ∀ args : List (List UInt8), args.length ≤ n →
    ((gGetopt fl ar args).bad = none ∧ GWords fl ar args (gGetopt fl ar args).opts (gGetopt fl ar args).operands) ∨
    ∃ c, (gGetopt fl ar args).bad = some c ∧ GBad fl ar args (gGetopt fl ar args).opts c := by
  induction n with
  | zero =>
    intro args h
    cases args with
    | nil => exact Or.inl ⟨rfl, .nil⟩
    | cons a r => simp at h
  | succ n ih =>
    intro args hl
    cases args with
    | nil => exact Or.inl ⟨rfl, .nil⟩
    | cons a r =>
      have hr : r.length ≤ n := by simpa using hl
      rw [gGetopt]
      by_cases h1 : a = bs "--"
      · rw [if_pos h1]
        rw [h1]; exact Or.inl ⟨rfl, .stop r⟩
      · rw [if_neg h1]
        by_cases h2 : a.head? = some 0x2D ∧ a ≠ bs "-"
        · rw [if_pos h2]
          have ea := dash_cons h2.1
          obtain ⟨cs, q1, q2, q3⟩ := gWord_cases T (a.drop 1)
          revert q3
          cases (gWord fl ar (a.drop 1)).2 with
          | done =>
            intro q3
            simp only at q3 ⊢
            have ne : cs ≠ [] := by
              intro e
              rw [e] at q3
              rw [q3] at ea
              exact h2.2 ea
            rw [q2, ea, q3]
            rcases ih r hr with ⟨hb, k⟩ | ⟨c, hb, k⟩
            · exact Or.inl ⟨hb, .flags cs r _ _ ne q1 k⟩
            · exact Or.inr ⟨c, hb, .flags cs r _ _ ne q1 k⟩
          | attached c v =>
            intro q3
            simp only at q3 ⊢
            rw [q2, ea, q3.1]
            unfold GetoptRes.pre
            simp only [List.append_assoc, List.cons_append, List.nil_append]
            rcases ih r hr with ⟨hb, k⟩ | ⟨x, hb, k⟩
            · exact Or.inl ⟨hb, .attached cs c v r _ _ q1 q3.2.1 q3.2.2 k⟩
            · exact Or.inr ⟨x, hb, .attached cs c v r _ _ q1 q3.2.1 q3.2.2 k⟩
          | wants c =>
            intro q3
            cases r with
            | nil =>
              simp only at q3 ⊢
              rw [q2, ea, q3.1]
              exact Or.inr ⟨c, rfl, .missing cs c q1 q3.2⟩
            | cons v r =>
              simp only at q3 ⊢
              rw [q2, ea, q3.1]
              unfold GetoptRes.pre
              simp only [List.append_assoc, List.cons_append, List.nil_append]
              rcases ih r (by simp at hr; omega) with ⟨hb, k⟩ | ⟨x, hb, k⟩
              · exact Or.inl ⟨hb, .separate cs c v r _ _ q1 q3.2 k⟩
              · exact Or.inr ⟨x, hb, .separate cs c v r _ _ q1 q3.2 k⟩
          | bad c =>
            intro q3
            obtain ⟨v, e, n1, n2⟩ := q3
            simp only
            refine Or.inr ⟨c, rfl, ?_⟩
            rw [q2, ea, e]
            refine .unknown cs c v r q1 n1 n2 ?_
            intro g
            rw [e, g] at ea
            exact h1 ea
        · rw [if_neg h2]
          have h3 : isOperand a := by
            have := (not_congr (isOpt_iff a)).mp h2
            exact Decidable.of_not_not this
          rcases ih r hr with ⟨hb, k⟩ | ⟨x, hb, k⟩
          · exact Or.inl ⟨hb, .operand a r _ _ h3 k⟩
          · exact Or.inr ⟨x, hb, .operand a r _ _ h3 k⟩

theorem gGetopt_complete (T : OptTab fl ar) {args os ps} (h : GWords fl ar args os ps) : gGetopt fl ar args = ⟨os, ps, none⟩ := by
  induction h with
  | nil => rfl
  | stop r => rw [gGetopt, if_pos rfl]
  | operand a r os ps ha _ ih =>
    have h1 : a ≠ bs "--" := by
      intro e
      rw [e] at ha
      exact absurd ha (by decide)
    have h2 : ¬ (a.head? = some 0x2D ∧ a ≠ bs "-") := fun g => (isOpt_iff a).mp g ha
    rw [gGetopt, if_neg h1, if_neg h2, ih]
  | flags cs r os ps ne hc _ ih =>
    have h1 : (0x2D :: cs) ≠ bs "--" := by
      intro e
      have : (0x2D :: cs : List UInt8) = [0x2D, 0x2D] := e
      simp only [List.cons.injEq, true_and] at this
      exact T.flDash 0x2D (hc _ (by rw [this]; simp)) rfl
    have q := gWord_flags (ar := ar) (t := []) hc
    rw [List.append_nil] at q
    rw [gGetopt, if_neg h1, if_pos (not_operand_dash ne), List.drop_succ_cons, List.drop_zero, q, ih]
    simp [gWord, GetoptRes.pre]
  | attached cs c v r os ps hc hx hv _ ih =>
    have h1 : (0x2D :: (cs ++ c :: v)) ≠ bs "--" := by
      intro e
      have : (0x2D :: (cs ++ c :: v) : List UInt8) = [0x2D, 0x2D] := e
      simp only [List.cons.injEq, true_and] at this
      cases cs with
      | nil => simp only [List.nil_append, List.cons.injEq] at this; exact T.arDash c hx this.1
      | cons x cs => simp only [List.cons_append, List.cons.injEq] at this; exact T.flDash x (hc x (by simp)) this.1
    rw [gGetopt, if_neg h1, if_pos (not_operand_dash (by simp)), List.drop_succ_cons, List.drop_zero, gWord_flags hc, gWord_arg T hx, if_neg hv, ih]
    simp [GetoptRes.pre]
  | separate cs c v r os ps hc hx _ ih =>
    have h1 : (0x2D :: (cs ++ [c])) ≠ bs "--" := by
      intro e
      have : (0x2D :: (cs ++ [c]) : List UInt8) = [0x2D, 0x2D] := e
      simp only [List.cons.injEq, true_and] at this
      cases cs with
      | nil => simp only [List.nil_append, List.cons.injEq] at this; exact T.arDash c hx this.1
      | cons x cs => simp only [List.cons_append, List.cons.injEq] at this; exact T.flDash x (hc x (by simp)) this.1
    rw [gGetopt, if_neg h1, if_pos (not_operand_dash (by simp)), List.drop_succ_cons, List.drop_zero, gWord_flags hc, gWord_arg T hx, if_pos rfl]
    simp only [ih]
    simp [GetoptRes.pre]

/-- A command line that is not valid is not taken for one that is, and the options before it are the same. -/
theorem gGetopt_bad (T : OptTab fl ar) {args os c} (h : GBad fl ar args os c) : (gGetopt fl ar args).opts = os ∧ (gGetopt fl ar args).bad = some c := by
  induction h with
  | unknown cs c v r hc n1 n2 hd =>
    have h1 : (0x2D :: (cs ++ c :: v)) ≠ bs "--" := by
      intro e
      have : (0x2D :: (cs ++ c :: v) : List UInt8) = [0x2D, 0x2D] := e
      simp only [List.cons.injEq, true_and] at this
      exact hd this
    rw [gGetopt, if_neg h1, if_pos (not_operand_dash (by simp)), List.drop_succ_cons, List.drop_zero, gWord_flags hc, gWord, if_neg n1, if_neg n2]
    simp
  | missing cs c hc hx =>
    have h1 : (0x2D :: (cs ++ [c])) ≠ bs "--" := by
      intro e
      have : (0x2D :: (cs ++ [c]) : List UInt8) = [0x2D, 0x2D] := e
      simp only [List.cons.injEq, true_and] at this
      cases cs with
      | nil => simp only [List.nil_append, List.cons.injEq] at this; exact T.arDash c hx this.1
      | cons x cs => simp only [List.cons_append, List.cons.injEq] at this; exact T.flDash x (hc x (by simp)) this.1
    rw [gGetopt, if_neg h1, if_pos (not_operand_dash (by simp)), List.drop_succ_cons, List.drop_zero, gWord_flags hc, gWord_arg T hx, if_pos rfl]
    simp
  | operand a r os c ha _ ih =>
    have h1 : a ≠ bs "--" := by
      intro e
      rw [e] at ha
      exact absurd ha (by decide)
    have h2 : ¬ (a.head? = some 0x2D ∧ a ≠ bs "-") := fun g => (isOpt_iff a).mp g ha
    rw [gGetopt, if_neg h1, if_neg h2]
    exact ih
  | flags cs r os c ne hc _ ih =>
    have h1 : (0x2D :: cs) ≠ bs "--" := by
      intro e
      have : (0x2D :: cs : List UInt8) = [0x2D, 0x2D] := e
      simp only [List.cons.injEq, true_and] at this
      exact T.flDash 0x2D (hc _ (by rw [this]; simp)) rfl
    have q := gWord_flags (ar := ar) (t := []) hc
    rw [List.append_nil] at q
    rw [gGetopt, if_neg h1, if_pos (not_operand_dash ne), List.drop_succ_cons, List.drop_zero, q]
    simp [gWord, GetoptRes.pre, ih]
  | attached cs x v r os c hc hx hv _ ih =>
    have h1 : (0x2D :: (cs ++ x :: v)) ≠ bs "--" := by
      intro e
      have : (0x2D :: (cs ++ x :: v) : List UInt8) = [0x2D, 0x2D] := e
      simp only [List.cons.injEq, true_and] at this
      cases cs with
      | nil => simp only [List.nil_append, List.cons.injEq] at this; exact T.arDash x hx this.1
      | cons y cs => simp only [List.cons_append, List.cons.injEq] at this; exact T.flDash y (hc y (by simp)) this.1
    rw [gGetopt, if_neg h1, if_pos (not_operand_dash (by simp)), List.drop_succ_cons, List.drop_zero, gWord_flags hc, gWord_arg T hx, if_neg hv]
    simp [GetoptRes.pre, ih]
  | separate cs x v r os c hc hx _ ih =>
    have h1 : (0x2D :: (cs ++ [x])) ≠ bs "--" := by
      intro e
      have : (0x2D :: (cs ++ [x]) : List UInt8) = [0x2D, 0x2D] := e
      simp only [List.cons.injEq, true_and] at this
      cases cs with
      | nil => simp only [List.nil_append, List.cons.injEq] at this; exact T.arDash x hx this.1
      | cons y cs => simp only [List.cons_append, List.cons.injEq] at this; exact T.flDash y (hc y (by simp)) this.1
    rw [gGetopt, if_neg h1, if_pos (not_operand_dash (by simp)), List.drop_succ_cons, List.drop_zero, gWord_flags hc, gWord_arg T hx, if_pos rfl]
    simp [GetoptRes.pre, ih]

/-- What options there can be. -/
theorem gWords_ok {args os ps} (h : GWords fl ar args os ps) : ∀ o ∈ os, match o with | .flag c => c ∈ fl | .arg c _ => c ∈ ar := by
  have fm : ∀ (cs : List UInt8) (o : COpt), (∀ c ∈ cs, c ∈ fl) → o ∈ cs.map COpt.flag → match o with | .flag c => c ∈ fl | .arg c _ => c ∈ ar := by
    intro cs o hc g
    obtain ⟨c, hc', e⟩ := List.mem_map.mp g
    rw [← e]; exact hc c hc'
  induction h with
  | nil => simp
  | stop r => simp
  | operand a r os ps _ _ ih => exact ih
  | flags cs r os ps ne hc _ ih =>
    intro o ho
    rcases List.mem_append.mp ho with g | g
    · exact fm cs o hc g
    · exact ih o g
  | attached cs c v r os ps hc hx _ _ ih =>
    intro o ho
    rcases List.mem_append.mp ho with g | g
    · exact fm cs o hc g
    · rcases List.mem_cons.mp g with e | g
      · rw [e]; exact hx
      · exact ih o g
  | separate cs c v r os ps hc hx _ ih =>
    intro o ho
    rcases List.mem_append.mp ho with g | g
    · exact fm cs o hc g
    · rcases List.mem_cons.mp g with e | g
      · rw [e]; exact hx
      · exact ih o g

/-- The same of those before a word that is not valid. -/
theorem gBad_ok {args os b} (h : GBad fl ar args os b) : ∀ o ∈ os, match o with | .flag c => c ∈ fl | .arg c _ => c ∈ ar := by
  have fm : ∀ (cs : List UInt8) (o : COpt), (∀ c ∈ cs, c ∈ fl) → o ∈ cs.map COpt.flag → match o with | .flag c => c ∈ fl | .arg c _ => c ∈ ar := by
    intro cs o hc g
    obtain ⟨c, hc', e⟩ := List.mem_map.mp g
    rw [← e]; exact hc c hc'
  induction h with
  | unknown cs c v r hc _ _ _ => exact fun o ho => fm cs o hc ho
  | missing cs c hc _ => exact fun o ho => fm cs o hc ho
  | operand a r os ps _ _ ih => exact ih
  | flags cs r os ps ne hc _ ih =>
    intro o ho
    rcases List.mem_append.mp ho with g | g
    · exact fm cs o hc g
    · exact ih o g
  | attached cs c v r os ps hc hx _ _ ih =>
    intro o ho
    rcases List.mem_append.mp ho with g | g
    · exact fm cs o hc g
    · rcases List.mem_cons.mp g with e | g
      · rw [e]; exact hx
      · exact ih o g
  | separate cs c v r os ps hc hx _ ih =>
    intro o ho
    rcases List.mem_append.mp ho with g | g
    · exact fm cs o hc g
    · rcases List.mem_cons.mp g with e | g
      · rw [e]; exact hx
      · exact ih o g

end Conman
