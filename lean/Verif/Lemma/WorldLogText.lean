import Verif.Lemma.WorldLogBook
import Verif.Spec.Demo

/-
The text in a log.
-/
namespace Conman
open Spec

theorem stampCount_text (ts bol : Bool) (b : UInt8) (l : List (Option UInt8)) :
    stampCount ts bol (some b :: l) = (if ts && bol then 1 else 0) + stampCount ts false l := rfl

theorem stampCount_eol (ts bol : Bool) (l : List (Option UInt8)) :
    stampCount ts bol (none :: l) = (if ts && bol then 1 else 0) + stampCount ts true l := rfl

theorem stampCount_bol (ts : Bool) (l : List (Option UInt8)) (h : l ≠ []) :
    stampCount ts true l = (if ts then 1 else 0) + stampCount ts false l := by
  cases l with
  | nil => simp at h
  | cons x xs => cases ts <;> simp [stampCount]

theorem logRef_stamps (o : LogOpts) (clk : Nat → List UInt8) (s : List UInt8) : ∀ k,
    (logRef o clk .data k s).2.1 = k + stampCount o.timestamp false (normLines s) ∧
    (logRef o clk .init k s).2.1 = k + logStamps o s ∧
    (logRef o clk .lf k s).2.1 = k + stampCount o.timestamp true
      (List.replicate ((s.takeWhile isRun).count 0x0A) none ++ normLines (s.dropWhile isRun)) ∧
    (logRef o clk .cr k s).2.1 = k + stampCount o.timestamp false
      (crRun (s.takeWhile isRun) (s.dropWhile isRun) ++ normLines (s.dropWhile isRun)) := by
  induction s with
  | nil => intro k; simp [logRef, normLines, stampCount, crRun, logStamps]
  | cons c cs ih =>
    intro k
    by_cases hcr : c = 0x0D
    · subst hcr
      have hrun : isRun 0x0D = true := by decide
      refine ⟨?_, ?_, ?_, ?_⟩
      · rw [normLines_cr, ← (ih k).2.2.2]; simp [logRef, logByteRef]
      · unfold logStamps
        rw [normLines_cr]
        simp only [logRef, logByteRef, if_true]
        rw [(ih _).2.2.2]
        by_cases hn : crRun (cs.takeWhile isRun) (cs.dropWhile isRun) ++ normLines (cs.dropWhile isRun) = []
        · rw [hn]; cases o.timestamp <;> simp [stampCount]
        · rw [stampCount_bol _ _ hn]
          cases o.timestamp <;> simp [hn] <;> omega
      · simp only [List.takeWhile_cons, List.dropWhile_cons, hrun, if_true]
        rw [List.count_cons_of_ne (by decide), ← (ih k).2.2.1]; simp [logRef, logByteRef]
      · simp only [List.takeWhile_cons, List.dropWhile_cons, hrun, if_true]
        have : crRun (0x0D :: cs.takeWhile isRun) (cs.dropWhile isRun) = crRun (cs.takeWhile isRun) (cs.dropWhile isRun) := by
          simp [crRun]
        rw [this, ← (ih k).2.2.2]; simp [logRef, logByteRef]
    by_cases hlf : c = 0x0A
    · subst hlf
      have hrun : isRun 0x0A = true := by decide
      refine ⟨?_, ?_, ?_, ?_⟩
      · rw [normLines_lf, stampCount_eol, Bool.and_false]; simp [logRef, logByteRef, (ih _).2.2.1]
      · unfold logStamps
        rw [normLines_lf, stampCount_eol, Bool.and_true]; cases ho : o.timestamp <;> simp [logRef, logByteRef, (ih _).2.2.1, ho] <;> omega
      · simp only [List.takeWhile_cons, List.dropWhile_cons, hrun, if_true, List.count_cons_self, List.replicate_succ, List.cons_append]
        rw [stampCount_eol, Bool.and_true]; cases ho : o.timestamp <;> simp [logRef, logByteRef, (ih _).2.2.1, ho] <;> omega
      · simp only [List.takeWhile_cons, List.dropWhile_cons, hrun, if_true]
        have : crRun (0x0A :: cs.takeWhile isRun) (cs.dropWhile isRun) = none :: List.replicate ((cs.takeWhile isRun).count 0x0A) none := by
          simp [crRun, List.replicate_succ]
        rw [this, List.cons_append, stampCount_eol, Bool.and_false]; simp [logRef, logByteRef, (ih _).2.2.1]
    have ht := normLines_text c cs hcr hlf
    by_cases hz : c = 0
    · subst hz
      have hrun : isRun 0 = true := by decide
      refine ⟨?_, ?_, ?_, ?_⟩
      · rw [ht, stampCount_text, Bool.and_false]; simp [logRef, logByteRef, (ih _).1]
      · unfold logStamps
        rw [ht, stampCount_text, Bool.and_true]; cases ho : o.timestamp <;> simp [logRef, logByteRef, (ih _).1, ho] <;> omega
      · simp only [List.takeWhile_cons, List.dropWhile_cons, hrun, if_true]
        rw [List.count_cons_of_ne (by decide), ← (ih k).2.2.1]; simp [logRef, logByteRef]
      · simp only [List.takeWhile_cons, List.dropWhile_cons, hrun, if_true]
        have : crRun (0 :: cs.takeWhile isRun) (cs.dropWhile isRun) = crRun (cs.takeWhile isRun) (cs.dropWhile isRun) := by
          simp [crRun]
        rw [this, ← (ih k).2.2.2]; simp [logRef, logByteRef]
    · have hrun : isRun c = false := by simp [isRun, hcr, hlf, hz]
      refine ⟨?_, ?_, ?_, ?_⟩
      · rw [ht, stampCount_text, Bool.and_false]; simp [logRef, logByteRef, hcr, hlf, hz, (ih _).1]
      · unfold logStamps
        rw [ht, stampCount_text, Bool.and_true]
        cases ho : o.timestamp <;> simp [logRef, logByteRef, hcr, hlf, hz, (ih _).1, ho] <;> omega
      · simp only [List.takeWhile_cons, List.dropWhile_cons, hrun]
        simp only [Bool.false_eq_true, if_false, List.count_nil, List.replicate_zero, List.nil_append]
        rw [ht, stampCount_text, Bool.and_true]
        cases ho : o.timestamp <;> simp [logRef, logByteRef, hcr, hlf, hz, (ih _).1, ho] <;> omega
      · simp only [List.takeWhile_cons, List.dropWhile_cons, hrun]
        have : crRun [] (c :: cs) = [none] := by simp [crRun]
        simp only [Bool.false_eq_true, if_false]
        rw [this, List.singleton_append, stampCount_eol, Bool.and_false, ht, stampCount_text, Bool.and_true]
        cases ho : o.timestamp <;> simp [logRef, logByteRef, hcr, hlf, hz, (ih _).1, ho] <;> omega

theorem logRef_lines (o : LogOpts) (clk : Nat → List UInt8) (k : Nat) (s : List UInt8) :
    (logRef o clk .init k s).2.2 = logLines o clk k s := by
  rw [(logRef_layout o clk s k).2.1, logText_eq]
  unfold logLines
  congr 1
  by_cases h1 : s ≠ [] <;> by_cases h2 : normLines s = [] <;> by_cases h3 : o.timestamp = true <;> simp [h1, h2, h3]

/-- The text of the entries of a processed log. -/
theorem logBook_page (o : LogOpts) (clk : Nat → List UInt8) (hclk : ∀ k, (clk k).length = 20)
    (hp : o.sanitize = true ∨ o.timestamp = true) (evs : List LogEv) : ∀ (k : Nat) (acc : List UInt8) (st : LineState) (k1 k' : Nat) (st' : LineState)
    (txt : List UInt8), (logRef o clk .init k acc).1 = st → (logRef o clk .init k acc).2.1 = k1 →
    logBook o clk st k1 evs = some (st', k', txt) → logLines o clk k acc ++ txt = logPage o clk k acc evs := by
  induction evs with
  | nil =>
    intro k acc st k1 k' st' txt _ _ h
    simp only [logBook, Option.some.injEq, Prod.mk.injEq] at h
    rw [← h.2.2, List.append_nil]; rfl
  | cons e es ih =>
    intro k acc st k1 k' st' txt h1 h2 h
    cases e with
    | out d =>
      rw [logBook, logChunks_eq o clk hclk hp] at h
      simp only [Option.map_eq_some_iff, Prod.mk.injEq, List.flatten_cons, List.flatten_nil, List.append_nil] at h
      obtain ⟨⟨a, b, c⟩, hb, rfl, rfl, rfl⟩ := h
      have ap := logRef_append o clk .init k acc d
      rw [h1, h2] at ap
      have := ih k (acc ++ d) _ _ _ _ _ (by rw [ap]) (by rw [ap]) hb
      rw [logPage, ← this, ← logRef_lines, ← logRef_lines, ap]
      simp
    | note t =>
      rw [logBook] at h
      simp only [Option.map_eq_some_iff, Prod.mk.injEq] at h
      obtain ⟨⟨a, b, c⟩, hb, rfl, rfl, rfl⟩ := h
      rw [(logRef_stamps o clk acc k).2.1] at h2
      subst h2
      have := ih (k + logStamps o acc) [] .init _ _ _ _ rfl rfl hb
      rw [logPage, ← this]
      simp [logLines, normLines, layout]

/-- The text of the entries of an unprocessed log. -/
theorem logBook_raw (clk : Nat → List UInt8) (evs : List LogEv) : ∀ (st : LineState) (k k' : Nat) (st' : LineState) (txt : List UInt8),
    logBook ⟨false, false⟩ clk st k evs = some (st', k', txt) → txt = evs.flatMap LogEv.bytes := by
  induction evs with
  | nil =>
    intro st k k' st' txt h
    simp only [logBook, Option.some.injEq, Prod.mk.injEq] at h
    rw [← h.2.2]; rfl
  | cons e es ih =>
    intro st k k' st' txt h
    cases e with
    | out d =>
      rw [logBook] at h
      simp only [logChunks, writeLogData, and_self, if_true, Option.map_some, List.flatten_cons, List.flatten_nil, List.append_nil,
        Option.map_eq_some_iff, Prod.mk.injEq] at h
      obtain ⟨⟨a, b, c⟩, hb, rfl, rfl, rfl⟩ := h
      rw [ih _ _ _ _ _ hb]; rfl
    | note t =>
      rw [logBook] at h
      simp only [Option.map_eq_some_iff, Prod.mk.injEq] at h
      obtain ⟨⟨a, b, c⟩, hb, rfl, rfl, rfl⟩ := h
      rw [ih _ _ _ _ _ hb]; rfl

theorem logRef_keeps (o : LogOpts) (clk : Nat → List UInt8) (s : List UInt8) : ∀ st k,
    ((s.filter (fun b => !isRun b)).flatMap (logText o)).Sublist (logRef o clk st k s).2.2 := by
  induction s with
  | nil => intro st k; exact List.Sublist.refl _
  | cons c cs ih =>
    intro st k
    rw [logRef]
    dsimp only
    by_cases h : isRun c = true
    · rw [List.filter_cons_of_neg (by simp [h])]
      exact (ih _ _).trans (List.sublist_append_right _ _)
    · rw [List.filter_cons_of_pos (by simpa using h), List.flatMap_cons]
      refine List.Sublist.append ?_ (ih _ _)
      unfold logByteRef
      simp only [isRun, Bool.or_eq_true, beq_iff_eq, not_or] at h
      dsimp only
      rw [if_neg h.1.1, if_neg h.1.2, if_neg (fun z => h.2 z.1)]
      exact List.sublist_append_right _ _

/-- The output of the console is in the log. -/
theorem logBook_keeps (o : LogOpts) (clk : Nat → List UInt8) (hclk : ∀ k, (clk k).length = 20) (evs : List LogEv) :
    ∀ (st : LineState) (k k' : Nat) (st' : LineState) (txt : List UInt8), logBook o clk st k evs = some (st', k', txt) →
    (((logOuts evs).filter (fun b => !isRun b)).flatMap (logText o)).Sublist txt := by
  induction evs with
  | nil => intro st k k' st' txt _; exact List.nil_sublist _
  | cons e es ih =>
    intro st k k' st' txt h
    cases e with
    | out d =>
      have q : ∃ st1 k1 t, logChunks o clk st k [d] = some (st1, k1, t) ∧ ((d.filter (fun b => !isRun b)).flatMap (logText o)).Sublist t := by
        by_cases hp : o.sanitize = true ∨ o.timestamp = true
        · rw [logChunks_eq o clk hclk hp]
          refine ⟨_, _, _, rfl, ?_⟩
          simpa using logRef_keeps o clk d st k
        · simp only [not_or, Bool.not_eq_true] at hp
          have ho : o = ⟨false, false⟩ := by cases o; simp_all
          subst ho
          refine ⟨_, _, _, by simp only [logChunks, writeLogData, and_self, if_true, Option.map_some]; rfl, ?_⟩
          rw [logText_eq]
          simp
      obtain ⟨st1, k1, t, hc, hs⟩ := q
      rw [logBook, hc] at h
      simp only [Option.map_eq_some_iff, Prod.mk.injEq] at h
      obtain ⟨⟨a, b, c⟩, hb, rfl, rfl, rfl⟩ := h
      have e : logOuts (.out d :: es) = d ++ logOuts es := rfl
      rw [e, List.filter_append, List.flatMap_append]
      exact hs.append (ih _ _ _ _ _ hb)
    | note t =>
      rw [logBook] at h
      simp only [Option.map_eq_some_iff, Prod.mk.injEq] at h
      obtain ⟨⟨a, b, c⟩, hb, rfl, rfl, rfl⟩ := h
      have e : logOuts (.note t :: es) = logOuts es := rfl
      rw [e]
      exact (ih _ _ _ _ _ hb).trans (List.sublist_append_right _ _)

/-- A sanitised log is printable if notices and stamps are. -/
theorem logBook_print (ts : Bool) (clk : Nat → List UInt8) (hclk : ∀ k, (clk k).length = 20) (hpr : ∀ k, ∀ b ∈ clk k, isPrint b = true)
    (evs : List LogEv) : (∀ t, .note t ∈ evs → ∀ b ∈ t, isPrint b = true ∨ b = 0x0D ∨ b = 0x0A) →
    ∀ (st : LineState) (k k' : Nat) (st' : LineState) (txt : List UInt8), logBook ⟨true, ts⟩ clk st k evs = some (st', k', txt) →
    ∀ b ∈ txt, isPrint b = true ∨ b = 0x0D ∨ b = 0x0A := by
  induction evs with
  | nil =>
    intro _ st k k' st' txt h
    simp only [logBook, Option.some.injEq, Prod.mk.injEq] at h
    rw [← h.2.2]; simp
  | cons e es ih =>
    intro hn st k k' st' txt h
    have ih := ih (fun t ht => hn t (by simp [ht]))
    cases e with
    | out d =>
      rw [logBook, logChunks_eq _ clk hclk (by simp)] at h
      simp only [Option.map_eq_some_iff, Prod.mk.injEq] at h
      obtain ⟨⟨a, b, c⟩, hb, rfl, rfl, rfl⟩ := h
      intro x hx
      rw [List.mem_append] at hx
      rcases hx with z | z
      · exact logRef_alphabet ⟨true, ts⟩ rfl clk hpr _ _ _ x z
      · exact ih _ _ _ _ _ hb x z
    | note t =>
      rw [logBook] at h
      simp only [Option.map_eq_some_iff, Prod.mk.injEq] at h
      obtain ⟨⟨a, b, c⟩, hb, rfl, rfl, rfl⟩ := h
      intro x hx
      rw [List.mem_append] at hx
      rcases hx with z | z
      · exact hn t (by simp) x z
      · exact ih _ _ _ _ _ hb x z

/-! ### From the configuration on -/

theorem logOf_boot (cfg : List ConConf) (n : Nat) (c : ConConf) (o : LogOpts) (hc : cfg[n]? = some c) (hl : c.log = some o) :
    LogOf (World.boot cfg) (2 * n + 1) (2 * n) ∧ ((World.boot cfg).obj (2 * n + 1)).opts = o ∧
    ((World.boot cfg).obj (2 * n + 1)).line = .init ∧ ((World.boot cfg).obj (2 * n + 1)).stamps = 0 ∧
    ((World.boot cfg).obj (2 * n + 1)).pend = [] ∧ ((World.boot cfg).obj (2 * n + 1)).gen = 0 := by
  have e : (World.boot cfg).obj (2 * n + 1) = { kind := .logfile, opts := o, writers := [2 * n] } := by
    simp only [World.boot]
    rw [show (2 * n + 1) / 2 = n by omega, hc]
    dsimp only
    rw [if_neg (by omega), hl]
    simp
  refine ⟨⟨by rw [e], fun a => ?_⟩, by rw [e], by rw [e], by rw [e], by rw [e], by rw [e]⟩
  rw [boot_readers]
  constructor
  · intro h; omega
  · rintro rfl
    rw [show 2 * n / 2 = n by omega, hc]
    simp [hl]

theorem Ext.fd {env : Env} {b : Bool} {o o' : Obj} (h : Ext env b o o') : o'.fd = o.fd := by
  induction h with
  | refl => rfl
  | trans _ _ h1 h2 => rw [h2, h1]
  | pass p => exact p.same.fd
  | reset => rfl
  | data o d _ => exact (SameFlags.write o d false).fd
  | log => rfl

/-- A log that is closed is not written to until it is opened. -/
theorem log_closed_step {env : Env} {w w' : World} (h : FInv w) (l : Nat) (hk : (w.obj l).kind = .logfile) (hll : l ∈ w.live) (hf : (w.obj l).fd = false)
    (s : Step) (hs : w.step env s = some w') (hn : s ≠ .logOpen l true) :
    (w'.obj l).kind = .logfile ∧ l ∈ w'.live ∧ (w'.obj l).fd = false ∧ sentTo l w'.fx = sentTo l w.fx := by
  have lv := step_live h.e.d s hs
  have hll' : l ∈ w'.live := by
    rcases lv.2.1 l hll with z | z
    · exact z
    · rw [hk] at z; simp at z
  have cl := (h.e.d.inv.oi l).closed hf
  refine ⟨by rw [lv.2.2 l hll]; exact hk, hll', ?_, ?_⟩
  · by_cases ht : s.target = some l
    case neg => rw [(step_ext h.e.d env s hs l ht).fd]; exact hf
    cases s with
    | check q => simp [Step.target] at ht
    | childExit a b => simp [Step.target] at ht
    | grant c k =>
      simp only [Step.target, Option.some.injEq] at ht; subst ht
      simp only [World.step, Option.some.injEq] at hs
      subst hs
      split
      · rw [if_pos hll]; exact hf
      · exact hf
    | poll i up rd wr =>
      simp only [Step.target, Option.some.injEq] at ht; subst ht
      simp only [World.step] at hs
      rw [if_pos (Or.inr cl)] at hs
      simp only [Option.some.injEq] at hs
      subst hs; exact hf
    | connUp i =>
      simp only [Step.target, Option.some.injEq] at ht; subst ht
      simp only [World.step, Option.some.injEq, if_pos hll] at hs
      unfold World.connUp at hs
      dsimp only at hs
      rw [if_pos (by rw [hk]; rfl)] at hs
      subst hs; exact hf
    | connPend i =>
      simp only [Step.target, Option.some.injEq] at ht; subst ht
      simp only [World.step, Option.some.injEq] at hs
      rw [if_neg (by rw [hk]; simp)] at hs
      subst hs; exact hf
    | connDown i =>
      simp only [Step.target, Option.some.injEq] at ht; subst ht
      simp only [World.step, Option.some.injEq] at hs
      rw [if_neg (by rw [hk]; simp)] at hs
      subst hs; exact hf
    | connFail i =>
      simp only [Step.target, Option.some.injEq] at ht; subst ht
      simp only [World.step, Option.some.injEq] at hs
      rw [if_neg (by rw [hk]; simp)] at hs
      subst hs; exact hf
    | resetTimeout i =>
      simp only [Step.target, Option.some.injEq] at ht; subst ht
      simp only [World.step, Option.some.injEq] at hs
      subst hs
      split
      · split
        · rw [World.mod_self]; exact hf
        · split
          · dsimp only; rw [World.mod_self]; exact hf
          · rw [World.mod_self]; exact hf
      · exact hf
    | logOpen i ok =>
      simp only [Step.target, Option.some.injEq] at ht; subst ht
      simp only [World.step, Option.some.injEq] at hs
      cases ok with
      | true => exact absurd rfl hn
      | false => rw [if_pos hk] at hs; subst hs; rw [World.mod_self]; rfl
    | logStamp i =>
      simp only [Step.target, Option.some.injEq] at ht; subst ht
      simp only [World.step, Option.some.injEq] at hs
      rw [if_pos hk] at hs
      subst hs
      unfold World.note
      rw [World.mod_self, (SameFlags.write _ _ true).fd]; exact hf
  · obtain ⟨x, hx, hq⟩ := step_sent env s hs
    rw [hx, sentTo_append]
    have : sentTo l x = [] := by
      unfold sentTo
      rw [List.flatMap_eq_nil_iff]
      intro y hy
      split
      · rename_i i d
        split
        · rename_i e; subst e
          have := (hq _ _ hy).1
          rw [cl.2] at this; simp at this
        · rfl
      · rfl
    rw [this, List.append_nil]

theorem log_closed_run {env : Env} (l : Nat) (ss : List Step) : ∀ {w w' : World}, FInv w → (w.obj l).kind = .logfile → l ∈ w.live →
    (w.obj l).fd = false → w.run env ss = some w' → Step.logOpen l true ∉ ss → (w'.obj l).fd = false ∧ sentTo l w'.fx = sentTo l w.fx := by
  induction ss with
  | nil =>
    intro w w' _ _ _ hf hr _
    simp only [World.run, Option.some.injEq] at hr; subst hr
    exact ⟨hf, rfl⟩
  | cons s ss ih =>
    intro w w' h hk hll hf hr hn
    simp only [World.run, Option.bind_eq_some_iff] at hr
    obtain ⟨w1, h1, h2⟩ := hr
    simp only [List.mem_cons, not_or] at hn
    obtain ⟨a, b, c, d⟩ := log_closed_step h l hk hll hf s h1 (fun e => hn.1 e.symm)
    obtain ⟨e, f⟩ := ih (w := { w1 with tick := w1.tick + 1 }) ((h.step s h1).tick (w1.tick + 1)) a b c h2 hn.2
    exact ⟨e, by rw [f]; exact d⟩

end Conman
