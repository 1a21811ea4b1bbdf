import Verif.Lemma.Getopt
import Verif.Lemma.ClientOpts
import Verif.Lemma.ConfSet
import Verif.Model.ServerArgs

/-
Lemmas about the command line of the daemon.
-/
namespace Conman
open Spec

theorem dTab : OptTab dFlags dArgs := ⟨by decide, by decide, by decide⟩

/-- What options amount to. -/
def daemonSet (E : DProg) (a : DArgs) (os : List COpt) : DArgs where
  conf := lastOr a.conf (argsOf 0x63 os)
  port := lastOr a.port ((argsOf 0x70 os).filterMap atoi)
  pidFile := lastOr a.pidFile ((argsOf 0x50 os).map fun v => some (relName E.cwd v))
  signal := match lastFlag (bs "kqr") os with | some x => some (dSignal x) | none => a.signal
  foreground := a.foreground || decide (.flag 0x46 ∈ os)
  verbose := a.verbose || decide (.flag 0x76 ∈ os)
  zero := a.zero || decide (.flag 0x7A ∈ os)

/-- Options that go on: no text is printed, and ports are numbers that are not negative. -/
structure GoOpts (os : List COpt) : Prop where
  ok : ∀ o ∈ os, match o with | .flag c => c ∈ dFlags | .arg c _ => c ∈ dArgs
  print : ∀ c ∈ dPrint, COpt.flag c ∉ os
  port : ∀ v ∈ argsOf 0x70 os, ∃ i : Int, atoi v = some i ∧ 0 ≤ i

theorem argsOf_sub (k : UInt8) (o : COpt) (os : List COpt) (v : List UInt8) (hv : v ∈ argsOf k os) : v ∈ argsOf k (o :: os) := by
  cases o with
  | flag x => exact hv
  | arg x w =>
    rw [argsOf_arg]
    split
    · exact List.mem_cons_of_mem _ hv
    · exact hv

theorem GoOpts.tail {o : COpt} {os : List COpt} (h : GoOpts (o :: os)) : GoOpts os :=
  ⟨fun x hx => h.ok x (List.mem_cons_of_mem _ hx), fun c hc g => h.print c hc (List.mem_cons_of_mem _ g), fun v hv => h.port v (argsOf_sub _ _ _ _ hv)⟩

theorem daemonSet_step (E : DProg) (a : DArgs) (o : COpt) (os : List COpt) (h : GoOpts (o :: os)) :
    ∃ a', daemonOpt E a o = some (.go a') ∧ daemonSet E a (o :: os) = daemonSet E a' os := by
  cases o with
  | flag x =>
    have hx : x = 0x46 ∨ x = 0x6B ∨ x = 0x71 ∨ x = 0x72 ∨ x = 0x76 ∨ x = 0x7A := by
      have : ∀ x ∈ dFlags, x ∉ dPrint → x = 0x46 ∨ x = 0x6B ∨ x = 0x71 ∨ x = 0x72 ∨ x = 0x76 ∨ x = 0x7A := by decide
      exact this x (h.ok (.flag x) (by simp)) (fun g => h.print x g (by simp))
    rcases hx with rfl | rfl | rfl | rfl | rfl | rfl
    all_goals
      refine ⟨_, rfl, ?_⟩
      unfold daemonSet
      simp only [lastFlag_cons, argsOf_flag, mem_flag, DArgs.mk.injEq, true_and, and_true]
      rw [show bs "kqr" = [0x6B, 0x71, 0x72] from rfl]
      generalize lastFlag [0x6B, 0x71, 0x72] os = y
      cases y <;> simp [dSignal]
  | arg x v =>
    have hx : x = 0x63 ∨ x = 0x70 ∨ x = 0x50 := by
      have : ∀ x ∈ dArgs, x = 0x63 ∨ x = 0x70 ∨ x = 0x50 := by decide
      exact this x (h.ok (.arg x v) (by simp))
    have hl : ∀ cs, lastFlag cs (.arg x v :: os) = lastFlag cs os := by
      intro cs
      rw [lastFlag_cons]
      cases lastFlag cs os <;> rfl
    rcases hx with rfl | rfl | rfl
    · refine ⟨_, rfl, ?_⟩
      unfold daemonSet
      simp only [hl, argsOf_arg, mem_arg, if_true, List.map_cons, lastOr_cons]
      rfl
    · obtain ⟨i, hi, h0⟩ := h.port v (by rw [argsOf_arg, if_pos rfl]; simp)
      refine ⟨{ a with port := i }, ?_, ?_⟩
      · rw [daemonOpt, if_neg (by decide), if_pos rfl, hi, Option.map_some, if_neg (by omega)]
      · unfold daemonSet
        simp only [hl, argsOf_arg, mem_arg, if_true, List.filterMap_cons, hi, lastOr_cons]
        rfl
    · refine ⟨_, rfl, ?_⟩
      unfold daemonSet
      simp only [hl, argsOf_arg, mem_arg, if_true, List.map_cons, lastOr_cons]
      rfl

/-- Options that go on, followed by others. -/
theorem daemonOpts_app (E : DProg) (pre post : List COpt) : ∀ a : DArgs, GoOpts pre → daemonOpts E a (pre ++ post) = daemonOpts E (daemonSet E a pre) post := by
  induction pre with
  | nil =>
    intro a _
    have : daemonSet E a [] = a := by
      unfold daemonSet
      simp [argsOf, lastOr, lastFlag]
    rw [List.nil_append, this]
  | cons o os ih =>
    intro a h
    obtain ⟨a', q1, q2⟩ := daemonSet_step E a o os h
    rw [List.cons_append, daemonOpts, q1, q2, Option.bind_some]
    exact ih a' h.tail

theorem daemonOpts_go (E : DProg) (a : DArgs) (os : List COpt) (h : GoOpts os) : daemonOpts E a os = some (.go (daemonSet E a os)) := by
  have := daemonOpts_app E os [] a h
  rw [List.append_nil] at this
  rw [this, daemonOpts]

/-! ### Numbers -/

theorem blank_space (c : UInt8) : isSpace c = blankByte c := by
  have : ∀ i : Fin 256, isSpace (UInt8.ofNat i.1) = blankByte (UInt8.ofNat i.1) := by decide +kernel
  have h := this ⟨c.toNat, c.toNat_lt⟩
  simpa using h

theorem digit_isDigit_iff (c : UInt8) : isDigit c = true ↔ digit c := by
  unfold isDigit digit
  simp

/-- The value of `atoi` before it is put into an `int`. -/
def leadVal (s : List UInt8) : Int :=
  let s := s.dropWhile isSpace
  let neg := s.head? = some 0x2D
  let s := if neg || s.head? = some 0x2B then s.drop 1 else s
  let v : Int := digitsVal (s.takeWhile isDigit)
  if neg then -v else v

theorem atoi_leadVal (s : List UInt8) : atoi s = if -2147483648 ≤ leadVal s ∧ leadVal s ≤ 2147483647 then some (leadVal s) else none := rfl

theorem digits_stop {d r : List UInt8} (hd : ∀ c ∈ d, digit c) (hr : ∀ c, r.head? = some c → ¬ digit c) : (d ++ r).takeWhile isDigit = d := by
  induction d with
  | nil =>
    cases r with
    | nil => rfl
    | cons c r =>
      have := hr c rfl
      rw [List.nil_append, List.takeWhile_cons, if_neg (fun g => this ((digit_isDigit_iff c).1 g))]
  | cons c d ih =>
    rw [List.cons_append, List.takeWhile_cons, if_pos ((digit_isDigit_iff c).2 (hd c (by simp))), ih (fun x hx => hd x (by simp [hx]))]

theorem leadNum_val {s : List UInt8} {z : Int} (h : LeadNum s z) : z = leadVal s := by
  obtain ⟨b, t, r, rfl, hb, ht, hr⟩ := h
  have hdrop : ∀ u : List UInt8, (∀ c, u.head? = some c → isSpace c = false) → (b ++ u).dropWhile isSpace = u := by
    intro u hu
    induction b with
    | nil =>
      cases u with
      | nil => rfl
      | cons c u => rw [List.nil_append, List.dropWhile_cons, if_neg (by rw [hu c rfl]; decide)]
    | cons c b ih =>
      rw [List.cons_append, List.dropWhile_cons, if_pos (by rw [blank_space]; exact hb c (by simp))]
      exact ih (fun x hx => hb x (by simp [hx]))
  rw [List.append_assoc]
  have hstop : ∀ c, r.head? = some c → ¬ digit c := fun c hc => (hr c hc).1
  cases ht with
  | plain ds hd =>
    have hh : ∀ c, (t ++ r).head? = some c → isSpace c = false ∧ c ≠ 0x2D ∧ c ≠ 0x2B := by
      intro c hc
      cases t with
      | nil =>
        obtain ⟨h1, h2, h3⟩ := (hr c hc).2 rfl
        rw [blank_space]; exact ⟨h1, h3, h2⟩
      | cons x t =>
        rw [List.cons_append, List.head?_cons, Option.some.injEq] at hc
        subst hc
        have := hd x (by simp)
        refine ⟨?_, ?_, ?_⟩
        · exact by simpa using digit_notSpace this
        · intro e; subst e; revert this; decide
        · intro e; subst e; revert this; decide
    unfold leadVal
    rw [hdrop _ (fun c hc => (hh c hc).1)]
    have n1 : ¬ (t ++ r).head? = some 0x2D := fun g => (hh _ g).2.1 rfl
    have n2 : ¬ (t ++ r).head? = some 0x2B := fun g => (hh _ g).2.2 rfl
    simp only [n1, n2, decide_false, Bool.or_false, Bool.false_eq_true, if_false, digits_stop hd hstop]
  | plus ds hd =>
    unfold leadVal
    rw [hdrop _ (by intro c hc; cases hc; rfl)]
    simp only [List.cons_append, List.head?_cons, Option.some.injEq, (by decide : ¬ (0x2B : UInt8) = 0x2D), decide_true, decide_false, Bool.or_true, if_true, if_false, List.drop_one,
      List.tail_cons, digits_stop hd hstop]
  | minus ds hd =>
    unfold leadVal
    rw [hdrop _ (by intro c hc; cases hc; rfl)]
    simp only [List.cons_append, List.head?_cons, decide_true, Bool.true_or, if_true, List.drop_one, List.tail_cons, digits_stop hd hstop]

theorem leadNum_exists (s : List UInt8) : ∃ z, LeadNum s z := by
  have e := List.takeWhile_append_dropWhile (p := isSpace) (l := s)
  have hb : ∀ c ∈ s.takeWhile isSpace, blankByte c = true := by
    intro c hc
    have := List.all_takeWhile (p := isSpace) (l := s)
    rw [List.all_eq_true] at this
    rw [← blank_space]; exact this c hc
  have hh : ∀ c, (s.dropWhile isSpace).head? = some c → isSpace c = false := by
    intro c hc
    have := List.head?_dropWhile_not isSpace s
    rw [hc] at this
    simpa using this
  generalize s.dropWhile isSpace = u at e hh
  generalize s.takeWhile isSpace = b at e hb
  have split : ∀ w : List UInt8, ∃ d r : List UInt8, w = d ++ r ∧ (∀ c ∈ d, digit c) ∧ ∀ c, r.head? = some c → ¬ digit c := by
    intro w
    refine ⟨w.takeWhile isDigit, w.dropWhile isDigit, List.takeWhile_append_dropWhile.symm, ?_, ?_⟩
    · intro c hc
      have := List.all_takeWhile (p := isDigit) (l := w)
      rw [List.all_eq_true] at this
      exact (digit_isDigit_iff c).1 (this c hc)
    · intro c hc g
      have := List.head?_dropWhile_not isDigit w
      rw [hc] at this
      rw [← digit_isDigit_iff] at g
      have this : isDigit c = false := this
      rw [g] at this
      cases this
  cases u with
  | nil => exact ⟨_, b, [], [], by rw [← e]; simp, hb, .plain [] (by simp), by intro c hc; cases hc⟩
  | cons x u =>
    by_cases h1 : x = 0x2B
    · subst h1
      obtain ⟨d, r, rfl, hd, hr⟩ := split u
      exact ⟨_, b, 0x2B :: d, r, by rw [← e]; simp, hb, .plus d hd, fun c hc => ⟨hr c hc, by intro g; cases g⟩⟩
    · by_cases h2 : x = 0x2D
      · subst h2
        obtain ⟨d, r, rfl, hd, hr⟩ := split u
        exact ⟨_, b, 0x2D :: d, r, by rw [← e]; simp, hb, .minus d hd, fun c hc => ⟨hr c hc, by intro g; cases g⟩⟩
      · obtain ⟨d, r, e2, hd, hr⟩ := split (x :: u)
        refine ⟨_, b, d, r, by rw [← e, e2]; simp, hb, .plain d hd, fun c hc => ⟨hr c hc, ?_⟩⟩
        intro g
        subst g
        rw [List.nil_append] at e2
        rw [← e2, List.head?_cons, Option.some.injEq] at hc
        subst hc
        rw [← blank_space]
        exact ⟨hh x rfl, h1, h2⟩

theorem leadNum_iff (s : List UInt8) (z : Int) : LeadNum s z ↔ z = leadVal s := by
  refine ⟨leadNum_val, fun e => ?_⟩
  obtain ⟨z', h⟩ := leadNum_exists s
  rw [e, ← leadNum_val h]; exact h

theorem atoi_lead {s : List UInt8} {z : Int} (h : LeadNum s z) (h1 : -2147483648 ≤ z) (h2 : z ≤ 2147483647) : atoi s = some z := by
  rw [atoi_leadVal, ← leadNum_val h, if_pos ⟨h1, h2⟩]

theorem goOpts_of {os : List COpt} (h : DGo os) (ok : ∀ o ∈ os, match o with | .flag c => c ∈ dFlags | .arg c _ => c ∈ dArgs) : GoOpts os :=
  ⟨ok, h.1, fun v hv => by
    obtain ⟨z, z1, z2, z3⟩ := h.2 v hv
    exact ⟨z, atoi_lead z1 (by omega) z3, z2⟩⟩

end Conman
