import Verif.Model.Opts
import Verif.Lemma.Dec
import Verif.Lemma.Lex

/-
Lemmas on option strings.
-/
namespace Conman
open Spec (Toks lastSays logSep commaSep digit sameName SerForm TestSet speeds parityNo floorSpeed blankChar octal hexDigit hexVal posVal CNum TestNum)

/-! ### Words -/

theorem strtokLoop_skip {sep : UInt8 → Bool} {a : List UInt8} (ha : ∀ c ∈ a, sep c = true) (s : List UInt8) :
    strtokLoop sep [] (a ++ s) = strtokLoop sep [] s := by
  induction a with
  | nil => rfl
  | cons c a ih =>
    rw [List.cons_append, strtokLoop, if_pos (ha c (by simp)), if_pos rfl]
    exact ih fun c hc => ha c (by simp [hc])

theorem strtokLoop_word {sep : UInt8 → Bool} {w : List UInt8} (hw : ∀ c ∈ w, sep c = false) {r : List UInt8} (hr : ∀ c, r.head? = some c → sep c = true) :
    ∀ cur : List UInt8, cur ++ w ≠ [] → strtokLoop sep cur (w ++ r) = (cur ++ w) :: strtokLoop sep [] r := by
  induction w with
  | nil =>
    intro cur h
    rw [List.append_nil] at h ⊢
    rw [List.nil_append]
    cases r with
    | nil => rw [strtokLoop, if_neg h, strtokLoop, if_pos rfl]
    | cons c r => rw [strtokLoop, if_pos (hr c rfl), if_neg h, strtokLoop, if_pos (hr c rfl), if_pos rfl]
  | cons c w ih =>
    intro cur _
    rw [List.cons_append, strtokLoop, hw c (by simp), if_neg (by simp), ih (fun c hc => hw c (by simp [hc])) _ (by simp)]
    simp

/-- `strtok` finds the words. -/
theorem strtok_eq {sep : UInt8 → Bool} {ts : List (List UInt8)} {s : List UInt8} (h : Toks sep ts s) : strtokAll sep s = ts := by
  unfold strtokAll
  induction h with
  | nil s h =>
    have := strtokLoop_skip h []
    rw [List.append_nil] at this
    rw [this]; rfl
  | cons a w r ha hw hs hr h ih =>
    rw [List.append_assoc, strtokLoop_skip ha, strtokLoop_word hs hr [] (by simpa using hw), ih]
    simp

/-- Every text consists of words. -/
theorem toks_exists (sep : UInt8 → Bool) (s : List UInt8) : ∃ ts, Toks sep ts s := by
  generalize hn : s.length = n
  induction n using Nat.strongRecOn generalizing s with
  | ind n ih =>
    have e1 : s = s.takeWhile sep ++ s.dropWhile sep := (List.takeWhile_append_dropWhile).symm
    generalize hu : s.dropWhile sep = u at e1
    have ha : ∀ c ∈ s.takeWhile sep, sep c = true := fun c hc => by
      have := List.all_takeWhile (p := sep) (l := s)
      rw [List.all_eq_true] at this
      exact this c hc
    cases u with
    | nil =>
      refine ⟨[], Toks.nil s ?_⟩
      rw [List.append_nil] at e1
      rw [e1]; exact ha
    | cons c u =>
      have hc : sep c = false := by
        have := List.head?_dropWhile_not sep s
        rw [hu] at this
        simpa using this
      have e2 : c :: u = (c :: u).takeWhile (fun c => !sep c) ++ (c :: u).dropWhile (fun c => !sep c) := (List.takeWhile_append_dropWhile).symm
      generalize hw : (c :: u).takeWhile (fun c => !sep c) = w at e2
      generalize hr : (c :: u).dropWhile (fun c => !sep c) = r at e2
      have hwne : w ≠ [] := by
        rw [← hw, List.takeWhile_cons, hc]; simp
      have hws : ∀ c ∈ w, sep c = false := fun d hd => by
        have := List.all_takeWhile (p := fun c => !sep c) (l := c :: u)
        rw [hw, List.all_eq_true] at this
        simpa using this d hd
      have hrs : ∀ d, r.head? = some d → sep d = true := fun d hd => by
        have := List.head?_dropWhile_not (fun c => !sep c) (c :: u)
        rw [hr, hd] at this
        simpa using this
      have hl : r.length < s.length := by
        rw [e1, e2]
        have := List.length_pos_iff.2 hwne
        simp only [List.length_append]; omega
      obtain ⟨ts, ht⟩ := ih r.length (by omega) r rfl
      refine ⟨w :: ts, ?_⟩
      have := Toks.cons (s.takeWhile sep) w r ha hwne hws hrs ht
      rw [List.append_assoc, ← e2, ← e1] at this
      exact this

theorem toks_zero {sep : UInt8 → Bool} {ts : List (List UInt8)} {s : List UInt8} (h : Toks sep ts s) (h0 : (0 : UInt8) ∉ s) : ∀ w ∈ ts, (0 : UInt8) ∉ w := by
  induction h with
  | nil => simp
  | cons a w r ha hw hs hr h ih =>
    simp only [List.mem_append, not_or] at h0
    intro v hv
    rcases List.mem_cons.1 hv with rfl | hv
    · exact h0.1.2
    · exact ih h0.2 v hv

/-! ### Log options -/

/-- What one word says. -/
def says (x w : List UInt8) : Option Bool := if sameName w x then some true else if sameName w (bs "no" ++ x) then some false else none

theorem lastSays_cons (x w : List UInt8) (ws : List (List UInt8)) : lastSays x (w :: ws) = (lastSays x ws).or (says x w) := rfl

theorem sn_ne {w a b : List UInt8} (h : sameName w a) (hab : ¬ sameName a b) : ¬ sameName w b := fun g => hab (h.symm.trans g)

theorem logOptStep_eq (o : LogOpt) {w : List UInt8} (h : (0 : UInt8) ∉ w) : logOptStep o w =
    ⟨(says (bs "lock") w).getD o.lock, (says (bs "sanitize") w).getD o.sanitize, (says (bs "timestamp") w).getD o.timestamp⟩ := by
  unfold logOptStep says
  simp only [(strcasecmp_spec w (bs "lock") h (by decide)).2.1, (strcasecmp_spec w (bs "nolock") h (by decide)).2.1,
    (strcasecmp_spec w (bs "sanitize") h (by decide)).2.1, (strcasecmp_spec w (bs "nosanitize") h (by decide)).2.1,
    (strcasecmp_spec w (bs "timestamp") h (by decide)).2.1, (strcasecmp_spec w (bs "notimestamp") h (by decide)).2.1]
  have e1 : bs "no" ++ bs "lock" = bs "nolock" := by decide
  have e2 : bs "no" ++ bs "sanitize" = bs "nosanitize" := by decide
  have e3 : bs "no" ++ bs "timestamp" = bs "notimestamp" := by decide
  rw [e1, e2, e3]
  by_cases h1 : sameName w (bs "lock")
  · have := fun b hb => sn_ne (b := b) h1 hb
    rw [if_pos h1, if_pos h1, if_neg (this _ (by decide)), if_neg (this _ (by decide)), if_neg (this _ (by decide)), if_neg (this _ (by decide))]; rfl
  rw [if_neg h1, if_neg h1]
  by_cases h2 : sameName w (bs "nolock")
  · have := fun b hb => sn_ne (b := b) h2 hb
    rw [if_pos h2, if_pos h2, if_neg (this _ (by decide)), if_neg (this _ (by decide)), if_neg (this _ (by decide)), if_neg (this _ (by decide))]; rfl
  rw [if_neg h2, if_neg h2]
  by_cases h3 : sameName w (bs "sanitize")
  · have := fun b hb => sn_ne (b := b) h3 hb
    rw [if_pos h3, if_pos h3, if_neg (this _ (by decide)), if_neg (this _ (by decide))]; rfl
  rw [if_neg h3, if_neg h3]
  by_cases h4 : sameName w (bs "nosanitize")
  · have := fun b hb => sn_ne (b := b) h4 hb
    rw [if_pos h4, if_pos h4, if_neg (this _ (by decide)), if_neg (this _ (by decide))]; rfl
  rw [if_neg h4, if_neg h4]
  by_cases h5 : sameName w (bs "timestamp")
  · rw [if_pos h5, if_pos h5]; rfl
  rw [if_neg h5, if_neg h5]
  by_cases h6 : sameName w (bs "notimestamp")
  · rw [if_pos h6, if_pos h6]; rfl
  rw [if_neg h6, if_neg h6]; rfl

theorem or_getD {α : Type} (a b : Option α) (d : α) : (a.or b).getD d = a.getD (b.getD d) := by
  cases a <;> rfl

theorem logOpt_fold (ts : List (List UInt8)) (h : ∀ w ∈ ts, (0 : UInt8) ∉ w) : ∀ o : LogOpt, ts.foldl logOptStep o =
    ⟨(lastSays (bs "lock") ts).getD o.lock, (lastSays (bs "sanitize") ts).getD o.sanitize, (lastSays (bs "timestamp") ts).getD o.timestamp⟩ := by
  induction ts with
  | nil => intro o; rfl
  | cons w ts ih =>
    intro o
    rw [List.foldl_cons, ih (fun w hw => h w (by simp [hw])), logOptStep_eq o (h w (by simp)), lastSays_cons, lastSays_cons, lastSays_cons, or_getD, or_getD, or_getD]

/-! ### Serial options -/

theorem intToBps_spec (val : Int) : ∀ (t : List Nat) (b : Nat), t.Pairwise (· < ·) → (∀ v ∈ t, b < v) →
    intToBps val t b = ((t.filter (fun v : Nat => decide ((v : Int) ≤ val))).getLast?).getD b := by
  intro t
  induction t with
  | nil => intro b _ _; rfl
  | cons v t ih =>
    intro b hp hb
    rw [List.pairwise_cons] at hp
    rw [intToBps]
    by_cases h : (v : Int) ≤ val
    · rw [if_pos h, ih v hp.2 hp.1, List.filter_cons, if_pos (by simpa using h), List.getLast?_cons]
      rfl
    · rw [if_neg h]
      have : (v :: t).filter (fun v : Nat => decide ((v : Int) ≤ val)) = [] := by
        rw [List.filter_eq_nil_iff]
        intro x hx
        have : v ≤ x := by
          rcases List.mem_cons.1 hx with rfl | hx
          · exact Nat.le_refl _
          · exact Nat.le_of_lt (hp.1 x hx)
        simp only [decide_eq_true_eq]; omega
      rw [this]; rfl

theorem floorSpeed_pos {b v : Nat} (h : floorSpeed b = some v) : 0 < v := by
  have := List.mem_of_getLast? h
  rw [List.mem_filter] at this
  have h2 : ∀ x ∈ speeds, 0 < x := by decide
  exact h2 v this.1

theorem bpsTable_speeds : bpsTable = speeds := rfl

theorem intToBps_floor (b : Nat) : intToBps (b : Int) bpsTable 0 = (floorSpeed b).getD 0 := by
  rw [intToBps_spec _ _ _ (by decide) (by decide), bpsTable_speeds]
  unfold floorSpeed
  congr 3
  funext v
  simp only [Int.ofNat_le]

theorem setBps_nat (o : SerOpt) (b : Nat) : setBps o (some (b : Int)) = (floorSpeed b).map fun v => { o with bps := v } := by
  unfold setBps
  dsimp only
  rw [intToBps_floor]
  cases h : floorSpeed b with
  | none => rfl
  | some v =>
    have := floorSpeed_pos h
    rw [Option.getD_some, if_neg (by omega)]; rfl

theorem scanD_dec (n : Nat) (hn : n ≤ 2147483647) (r : List UInt8) (hr : ∀ c, r.head? = some c → ¬ digit c) : scanD (dec n ++ r) = some (some ((n : Int), r)) := by
  obtain ⟨h1, h2, h3, _⟩ := dec_spec n
  generalize dec n = s at h1 h2 h3
  cases s with
  | nil => exact absurd rfl h1
  | cons a s =>
    have ha := h2 a (by simp)
    have e1 : (a :: s ++ r).dropWhile isSpace = a :: s ++ r := by rw [List.cons_append, List.dropWhile_cons, digit_notSpace ha]; rfl
    have hm : (a :: s ++ r).head? ≠ some 0x2D ∧ (a :: s ++ r).head? ≠ some 0x2B := by
      constructor <;> (intro g; simp only [List.cons_append, List.head?_cons, Option.some.injEq] at g; subst g; revert ha; decide)
    have ht : (a :: s ++ r).takeWhile isDigit = a :: s ∧ (a :: s ++ r).dropWhile isDigit = r := by
      have hp : ∀ x ∈ a :: s, isDigit x = true := fun x hx => digit_isDigit (h2 x hx)
      rw [List.takeWhile_append_of_pos hp, List.dropWhile_append_of_pos hp]
      cases r with
      | nil => simp
      | cons c r =>
        have : isDigit c = false := by
          by_cases g : isDigit c = true
          · exact absurd (isDigit_digit g) (hr c rfl)
          · simpa using g
        rw [List.takeWhile_cons, List.dropWhile_cons, this]; simp
    unfold scanD
    simp only [e1, hm.1, hm.2, decide_false, Bool.or_false, Bool.false_eq_true, if_false, ht.1, ht.2, h3]
    rw [if_neg (by simp), if_pos (by omega)]

theorem scanD_nil : scanD [] = some none := by decide

theorem scanD_noDigit {s : List UInt8} (h : ∀ c, (s.dropWhile isSpace).head? = some c → ¬ digit c ∧ c ≠ 0x2D ∧ c ≠ 0x2B) : scanD s = some none := by
  unfold scanD
  dsimp only
  generalize s.dropWhile isSpace = u at h ⊢
  cases u with
  | nil => simp
  | cons c u =>
    obtain ⟨h1, h2, h3⟩ := h c rfl
    have : isDigit c = false := by
      by_cases g : isDigit c = true
      · exact absurd (isDigit_digit g) h1
      · simpa using g
    simp only [List.head?_cons, Option.some.injEq, h2, h3, decide_false, Bool.or_false, Bool.false_eq_true, if_false]
    rw [List.takeWhile_cons, this]; simp

theorem comma_notDigit : ¬ digit 0x2C := by decide

theorem scanSer_text (f : SerForm) (h : f.Small) : scanSer f.text = some (match f with
    | .bps b => { bps := some (b : Int) }
    | .bits b d => { bps := some (b : Int), databits := some (d : Int) }
    | .parity b d p => { bps := some (b : Int), databits := some (d : Int), parity := some p }
    | .full b d p s => { bps := some (b : Int), databits := some (d : Int), parity := some p, stopbits := some (s : Int) }) := by
  unfold scanSer
  have hc : ∀ (x : List UInt8) (c : UInt8), (0x2C :: x).head? = some c → ¬ digit c := by
    intro x c h; simp only [List.head?_cons, Option.some.injEq] at h; subst h; exact comma_notDigit
  cases f with
  | bps b =>
    have := scanD_dec b h [] (by simp)
    rw [List.append_nil] at this
    simp only [SerForm.text, this]
  | bits b d =>
    have := scanD_dec d h.2 [] (by simp)
    rw [List.append_nil] at this
    simp only [SerForm.text, scanD_dec b h.1 _ (hc _), this]
  | parity b d p =>
    have := scanD_dec d h.2.1 [p] (by intro c g; simp only [List.head?_cons, Option.some.injEq] at g; subst g; exact h.2.2)
    simp only [SerForm.text, scanD_dec b h.1 _ (hc _), this, scanD_nil]
  | full b d p s =>
    have := scanD_dec d h.2.1 (p :: dec s) (by intro c g; simp only [List.head?_cons, Option.some.injEq] at g; subst g; exact h.2.2.1)
    have h3 := scanD_dec s h.2.2.2 [] (by simp)
    rw [List.append_nil] at h3
    simp only [SerForm.text, scanD_dec b h.1 _ (hc _), this, h3]

theorem setDatabits_nat (o : SerOpt) (d : Nat) : setDatabits o (some (d : Int)) = if 5 ≤ d ∧ d ≤ 8 then some { o with databits := d } else none := by
  unfold setDatabits
  dsimp only
  by_cases h : 5 ≤ d ∧ d ≤ 8
  · rw [if_pos h, if_neg (by omega)]
  · rw [if_neg h, if_pos (by omega)]

theorem setStopbits_nat (o : SerOpt) (d : Nat) : setStopbits o (some (d : Int)) = if 1 ≤ d ∧ d ≤ 2 then some { o with stopbits := d } else none := by
  unfold setStopbits
  dsimp only
  by_cases h : 1 ≤ d ∧ d ≤ 2
  · rw [if_pos h, if_neg (by omega)]
  · rw [if_neg h, if_pos (by omega)]

theorem setParity_eq (o : SerOpt) (p : UInt8) : setParity o (some p) = (parityNo p).map fun n => { o with parity := n } := by
  unfold setParity parityNo
  dsimp only
  by_cases h1 : p = 0x4E ∨ p = 0x6E
  · rw [if_pos h1, if_pos h1]; rfl
  rw [if_neg h1, if_neg h1]
  by_cases h2 : p = 0x4F ∨ p = 0x6F
  · rw [if_pos h2, if_pos h2]; rfl
  rw [if_neg h2, if_neg h2]
  by_cases h3 : p = 0x45 ∨ p = 0x65
  · rw [if_pos h3, if_pos h3]; rfl
  rw [if_neg h3, if_neg h3]; rfl

/-! ### Test options -/

theorem byte_all {P : UInt8 → Prop} (h : ∀ n : Fin 256, P (UInt8.ofNat n.1)) (c : UInt8) : P c := by
  have := h ⟨c.toNat, c.toNat_lt⟩
  simpa only [UInt8.ofNat_toNat] using this

theorem digitOf_facts (c : UInt8) : (digitOf c < 10 ↔ digit c) ∧ (digitOf c < 8 ↔ octal c) ∧ (digitOf c < 16 ↔ hexDigit c) ∧ (digitOf c < 16 → digitOf c = hexVal c) :=
  byte_all (P := fun c => (digitOf c < 10 ↔ digit c) ∧ (digitOf c < 8 ↔ octal c) ∧ (digitOf c < 16 ↔ hexDigit c) ∧ (digitOf c < 16 → digitOf c = hexVal c))
    (by decide +kernel) c

theorem isSpace_iff (c : UInt8) : isSpace c = true ↔ blankChar c := byte_all (P := fun c => isSpace c = true ↔ blankChar c) (by decide +kernel) c

theorem foldl_congr_mem {α β : Type} {f g : β → α → β} {l : List α} (h : ∀ x ∈ l, ∀ b, f b x = g b x) (b : β) : l.foldl f b = l.foldl g b := by
  induction l generalizing b with
  | nil => rfl
  | cons a l ih => rw [List.foldl_cons, List.foldl_cons, h a (by simp), ih (fun x hx => h x (by simp [hx]))]

theorem fold_posVal {b : Nat} (hb : b ≤ 16) {ds : List UInt8} (h : ∀ c ∈ ds, digitOf c < b) : ds.foldl (fun a c => b * a + digitOf c) 0 = posVal b ds := by
  unfold posVal
  exact foldl_congr_mem (fun x hx a => by rw [(digitOf_facts x).2.2.2 (Nat.lt_of_lt_of_le (h x hx) hb)]) 0

/-- The value with its sign, as `strtol` gives it. -/
def signed (neg : Bool) (n : Nat) : Int := if neg then -(n : Int) else n

theorem takeDrop_all {p : UInt8 → Bool} {s : List UInt8} (h : ∀ c ∈ s, p c = true) : s.takeWhile p = s ∧ s.dropWhile p = [] := by
  have h1 := List.takeWhile_append_of_pos (l₂ := []) h
  have h2 := List.dropWhile_append_of_pos (l₂ := []) h
  simpa using And.intro h1 h2

/-- `numBase` of a number. -/
theorem numBase_num {s : List UInt8} {n : Nat} (h : CNum s n) : (numBase s).1 ≤ 16 ∧ (numBase s).2 ≠ [] ∧ (∀ c ∈ (numBase s).2, digitOf c < (numBase s).1) ∧
    posVal (numBase s).1 (numBase s).2 = n := by
  cases h with
  | dec _ hne h h0 =>
    have : numBase s = (10, s) := by unfold numBase; rw [if_neg h0]
    rw [this]
    exact ⟨by simp, hne, fun c hc => (digitOf_facts c).1.2 (h c hc), rfl⟩
  | oct ds h =>
    have : numBase (0x30 :: ds) = (8, 0x30 :: ds) := by
      unfold numBase
      rw [if_pos List.head?_cons, if_neg]
      rintro ⟨g, _⟩
      cases ds with
      | nil => simp at g
      | cons d ds =>
        have := h d (by simp)
        rcases g with g | g <;> (simp only [List.drop_succ_cons, List.drop_zero, List.head?_cons, Option.some.injEq] at g; subst g; revert this; decide)
    rw [this]
    refine ⟨by simp, by simp, fun c hc => (digitOf_facts c).2.1.2 ?_, ?_⟩
    · rcases List.mem_cons.1 hc with rfl | hc
      · decide
      · exact h c hc
    · unfold posVal; rw [List.foldl_cons]; rfl
  | hex x hx ds hne h =>
    have : numBase (0x30 :: x :: ds) = (16, ds) := by
      unfold numBase
      rw [if_pos List.head?_cons, if_pos]
      · rfl
      refine ⟨by rcases hx with rfl | rfl <;> simp, ?_⟩
      cases ds with
      | nil => exact absurd rfl hne
      | cons d ds => exact (digitOf_facts d).2.2.1.2 (h d (by simp))
    rw [this]
    exact ⟨by simp, hne, fun c hc => (digitOf_facts c).2.2.1.2 (h c hc), rfl⟩

/-- A text that consists of digits in its base is a number. -/
theorem num_of_base {s : List UInt8} (h1 : (numBase s).2 ≠ []) (h2 : ∀ c ∈ (numBase s).2, digitOf c < (numBase s).1) :
    CNum s (posVal (numBase s).1 (numBase s).2) := by
  unfold numBase at *
  by_cases h : s.head? = some 0x30
  · rw [if_pos h] at *
    obtain ⟨t, rfl⟩ : ∃ t, s = 0x30 :: t := by
      cases s with
      | nil => simp at h
      | cons a t => simp only [List.head?_cons, Option.some.injEq] at h; exact ⟨t, by rw [h]⟩
    by_cases g : (((0x30 :: t).drop 1).head? = some 0x78 ∨ ((0x30 :: t).drop 1).head? = some 0x58) ∧ digitOf (((0x30 :: t).drop 2).headD 0) < 16
    · rw [if_pos g] at *
      obtain ⟨x, u, rfl, hx⟩ : ∃ x u, t = x :: u ∧ (x = 0x78 ∨ x = 0x58) := by
        cases t with
        | nil => simp at g
        | cons x u => exact ⟨x, u, rfl, by simpa using g.1⟩
      exact CNum.hex x hx u h1 fun c hc => (digitOf_facts c).2.2.1.1 (h2 c hc)
    · rw [if_neg g] at *
      have := CNum.oct t fun c hc => (digitOf_facts c).2.1.1 (h2 c (by simp [hc]))
      have e : posVal 8 (0x30 :: t) = posVal 8 t := by unfold posVal; rw [List.foldl_cons]; rfl
      dsimp only
      rw [e]; exact this
  · rw [if_neg h] at *
    exact CNum.dec s h1 (fun c hc => (digitOf_facts c).1.1 (h2 c hc)) h

/-- What `strtol` gives for a number. -/
theorem strtolBody_eq (p : List UInt8) (neg : Bool) {s : List UInt8} {n : Nat} (h : CNum s n) :
    strtolBody p neg s = if signed neg n > 9223372036854775807 then (9223372036854775807, [], true)
      else if signed neg n < -9223372036854775808 then (-9223372036854775808, [], true) else (signed neg n, [], false) := by
  obtain ⟨h1, h2, h3, h4⟩ := numBase_num h
  have ht := takeDrop_all (p := fun c => decide (digitOf c < (numBase s).1)) (s := (numBase s).2) (fun c hc => by simpa using h3 c hc)
  have hv := fold_posVal h1 h3
  rw [h4] at hv
  unfold strtolBody
  simp only [ht.1, ht.2, hv]
  rw [if_neg h2]; rfl

theorem strtolBody_num (p : List UInt8) (neg : Bool) {s : List UInt8} {n : Nat} (h : CNum s n) :
    (strtolBody p neg s).2.1 = [] ∧ (n ≤ 9223372036854775807 → (strtolBody p neg s).1 = signed neg n ∧ (strtolBody p neg s).2.2 = false) ∧
    (n > 9223372036854775807 → (strtolBody p neg s).1 > 2147483647 ∨ (strtolBody p neg s).1 < 0) := by
  rw [strtolBody_eq p neg h]
  unfold signed
  cases neg <;> simp only [Bool.false_eq_true, if_false, if_true]
  · split
    · refine ⟨rfl, fun g => by omega, fun _ => Or.inl (by decide)⟩
    · rw [if_neg (by omega)]
      exact ⟨rfl, fun _ => ⟨rfl, rfl⟩, fun g => by omega⟩
  · rw [if_neg (by omega)]
    split
    · refine ⟨rfl, fun g => by omega, fun _ => Or.inr (by decide)⟩
    · exact ⟨rfl, fun _ => ⟨rfl, rfl⟩, fun g => Or.inr (by dsimp only; omega)⟩

/-- If `strtol` takes the whole text, that is empty or a number. -/
theorem strtolBody_all (p : List UInt8) (neg : Bool) (s : List UInt8) (h : (strtolBody p neg s).2.1 = []) : p = [] ∨ ∃ n, CNum s n := by
  unfold strtolBody at h
  dsimp only at h
  by_cases g : (numBase s).2.takeWhile (fun c => decide (digitOf c < (numBase s).1)) = []
  · rw [if_pos g] at h; exact Or.inl h
  · rw [if_neg g] at h
    have hd : (numBase s).2.dropWhile (fun c => decide (digitOf c < (numBase s).1)) = [] := by
      have hh : ∀ (c1 c2 : Prop) [Decidable c1] [Decidable c2] (a1 a2 a3 : Int) (b1 b2 b3 : Bool) (r : List UInt8),
          (if c1 then (a1, r, b1) else if c2 then (a2, r, b2) else (a3, r, b3)).2.1 = r := by
        intros; split
        · rfl
        · split <;> rfl
      rw [hh] at h
      exact h
    right
    have hall : ∀ c ∈ (numBase s).2, digitOf c < (numBase s).1 := by
      intro c hc
      have := List.takeWhile_append_dropWhile (p := fun c => decide (digitOf c < (numBase s).1)) (l := (numBase s).2)
      rw [hd, List.append_nil] at this
      rw [← this] at hc
      have h5 := List.all_takeWhile (p := fun c => decide (digitOf c < (numBase s).1)) (l := (numBase s).2)
      rw [List.all_eq_true] at h5
      simpa using h5 c hc
    refine ⟨_, num_of_base ?_ hall⟩
    intro e
    rw [e] at g
    simp at g

theorem num_head {s : List UInt8} {n : Nat} (h : CNum s n) : ∃ c, s.head? = some c ∧ digit c := by
  cases h with
  | dec _ hne h h0 =>
    cases s with
    | nil => exact absurd rfl hne
    | cons c s => exact ⟨c, rfl, h c (by simp)⟩
  | oct => exact ⟨0x30, rfl, by decide⟩
  | hex => exact ⟨0x30, rfl, by decide⟩

theorem strtol_nil : strtol [] = (0, [], false) := by decide +kernel

theorem dropWhile_blank {a r : List UInt8} (ha : ∀ c ∈ a, blankChar c) (hr : ∀ c, r.head? = some c → ¬ blankChar c) : (a ++ r).dropWhile isSpace = r := by
  rw [List.dropWhile_append_of_pos (fun c hc => (isSpace_iff c).2 (ha c hc))]
  cases r with
  | nil => rfl
  | cons c r =>
    rw [List.dropWhile_cons, if_neg]
    intro g
    exact hr c rfl ((isSpace_iff c).1 g)

theorem digit_facts {c : UInt8} (h : digit c) : ¬ blankChar c ∧ c ≠ 0x2D ∧ c ≠ 0x2B :=
  byte_all (P := fun c => digit c → ¬ blankChar c ∧ c ≠ 0x2D ∧ c ≠ 0x2B) (by decide +kernel) c h

/-- `strtol` on the text of a number. -/
theorem strtol_plain {a sg body : List UInt8} {n : Nat} (ha : ∀ c ∈ a, blankChar c) (hs : sg = [] ∨ sg = [0x2B]) (h : CNum body n) :
    strtol (a ++ (sg ++ body)) = strtolBody (a ++ (sg ++ body)) false body := by
  obtain ⟨c, hc, hd⟩ := num_head h
  cases body with
  | nil => simp at hc
  | cons d body =>
    simp only [List.head?_cons, Option.some.injEq] at hc
    subst hc
    obtain ⟨f1, f2, f3⟩ := digit_facts hd
    have hdw : (a ++ (sg ++ d :: body)).dropWhile isSpace = sg ++ d :: body := by
      apply dropWhile_blank ha
      rcases hs with rfl | rfl
      · intro x hx; simp only [List.nil_append, List.head?_cons, Option.some.injEq] at hx; subst hx; exact f1
      · intro x hx; simp only [List.cons_append, List.head?_cons, Option.some.injEq] at hx; subst hx; decide
    unfold strtol
    rw [hdw]
    rcases hs with rfl | rfl
    · split
      · rename_i g; simp only [List.nil_append, List.cons.injEq] at g; exact absurd g.1 f2
      · rename_i g; simp only [List.nil_append, List.cons.injEq] at g; exact absurd g.1 f3
      · rfl
    · rfl

theorem strtol_neg {a body : List UInt8} (ha : ∀ c ∈ a, blankChar c) : strtol (a ++ 0x2D :: body) = strtolBody (a ++ 0x2D :: body) true body := by
  have hdw : (a ++ 0x2D :: body).dropWhile isSpace = 0x2D :: body := by
    apply dropWhile_blank ha
    intro x hx; simp only [List.head?_cons, Option.some.injEq] at hx; subst hx; decide
  unfold strtol
  rw [hdw]
  rfl

/-- The values `strtol` accepts. -/
theorem strtol_good {p : List UInt8} {n : Nat} (h : TestNum p n) (hn : n ≤ 2147483647) : strtol p = ((n : Int), [], false) := by
  cases h with
  | none => exact strtol_nil
  | num a sg body n ha hs h =>
    rw [strtol_plain ha hs h]
    obtain ⟨h1, h2, _⟩ := strtolBody_num (a ++ (sg ++ body)) false h
    obtain ⟨h2, h3⟩ := h2 (by omega)
    exact Prod.ext h2 (Prod.ext h1 h3)
  | negZero a body ha h =>
    rw [strtol_neg ha]
    obtain ⟨h1, h2, _⟩ := strtolBody_num (a ++ 0x2D :: body) true h
    obtain ⟨h2, h3⟩ := h2 (by omega)
    exact Prod.ext h2 (Prod.ext h1 h3)

theorem strtol_only {p : List UInt8} (h1 : (strtol p).2.1 = []) (h2 : 0 ≤ (strtol p).1) (h3 : (strtol p).1 ≤ 2147483647) :
    ∃ n, n ≤ 2147483647 ∧ TestNum p n := by
  have hp : p = p.takeWhile isSpace ++ p.dropWhile isSpace := (List.takeWhile_append_dropWhile).symm
  have ha : ∀ c ∈ p.takeWhile isSpace, blankChar c := fun c hc => by
    have := List.all_takeWhile (p := isSpace) (l := p)
    rw [List.all_eq_true] at this
    exact (isSpace_iff c).1 (this c hc)
  generalize p.takeWhile isSpace = a at hp ha
  unfold strtol at h1 h2 h3
  generalize hu : p.dropWhile isSpace = u at hp h1 h2 h3
  have key : ∀ (neg : Bool) (s : List UInt8), (strtolBody p neg s).2.1 = [] → 0 ≤ (strtolBody p neg s).1 → (strtolBody p neg s).1 ≤ 2147483647 →
      p = [] ∨ ∃ n, CNum s n ∧ n ≤ 2147483647 ∧ (neg = true → n = 0) := by
    intro neg s k1 k2 k3
    rcases strtolBody_all p neg s k1 with h | ⟨n, h⟩
    · exact Or.inl h
    · right
      obtain ⟨_, b2, b3⟩ := strtolBody_num p neg h
      refine ⟨n, h, ?_⟩
      by_cases g : n ≤ 9223372036854775807
      · rw [(b2 g).1] at k2 k3
        unfold signed at k2 k3
        cases neg with
        | false => simp only [Bool.false_eq_true, if_false] at k2 k3; exact ⟨by omega, by simp⟩
        | true => simp only [if_true] at k2 k3; exact ⟨by omega, fun _ => by omega⟩
      · have := b3 (by omega); omega
  split at h1
  · rename_i s
    rcases key true s h1 h2 h3 with g | ⟨n, g1, g2, g3⟩
    · exact ⟨0, by decide, by rw [g]; exact TestNum.none⟩
    · have := g3 rfl; subst this
      exact ⟨0, by decide, by rw [hp]; exact TestNum.negZero a s ha g1⟩
  · rename_i s
    rcases key false s h1 h2 h3 with g | ⟨n, g1, g2, g3⟩
    · exact ⟨0, by decide, by rw [g]; exact TestNum.none⟩
    · exact ⟨n, g2, by rw [hp]; exact TestNum.num a [0x2B] s n ha (Or.inr rfl) g1⟩
  · rename_i x y
    rcases key false _ h1 (by simpa using h2) (by simpa using h3) with g | ⟨n, g1, g2, g3⟩
    · exact ⟨0, by decide, by rw [g]; exact TestNum.none⟩
    · exact ⟨n, g2, by rw [hp]; exact TestNum.num a [] _ n ha (Or.inl rfl) g1⟩

/-- The option with this letter. -/
theorem letters_cases {t : TestSet} {k : UInt8} (h : k ∈ t.letters) : k ∈ [0x42, 0x62, 0x4D, 0x6D, 0x4E, 0x6E, 0x50, 0x70] := by
  cases t <;> (simp only [TestSet.letters, List.mem_cons, List.not_mem_nil, or_false] at h; rcases h with rfl | rfl <;> decide)

theorem processTestOpt_num (k : UInt8) (p : List UInt8) (n : Nat) (h : n ≤ 2147483647) (hs : strtol p = ((n : Int), [], false)) (o : TestOpt)
    (hk : k ∈ [0x42, 0x62, 0x4D, 0x6D, 0x4E, 0x6E, 0x50, 0x70]) :
    processTestOpt false o (k :: 0x3A :: p) =
      (if toLower k = 0x62 then { o with numBytes := n } else if toLower k = 0x6D then { o with msecMax := n }
        else if toLower k = 0x6E then { o with msecMin := n } else { o with probability := if n ≤ 100 then n else 100 }, 0, false) := by
  unfold processTestOpt
  simp only [hs]
  have hc : ¬ (([] : List UInt8) ≠ [] ∨ (false || false) = true ∨ (n : Int) < 0 ∨ (n : Int) > 2147483647) := by
    simp only [ne_eq, not_true_eq_false, Bool.or_self, Bool.false_eq_true, false_or]; omega
  have hp : (if (n : Int) < 100 then (n : Int) else 100) = if n ≤ 100 then (n : Int) else 100 := by
    by_cases g : n ≤ 100
    · rw [if_pos g]; split <;> omega
    · rw [if_neg g, if_neg (by omega)]
  rw [if_pos hk, if_neg hc, hp]
  by_cases h1 : toLower k = 0x62
  · rw [if_pos h1, if_pos h1]; rfl
  rw [if_neg h1, if_neg h1]
  by_cases h2 : toLower k = 0x6D
  · rw [if_pos h2, if_pos h2]; rfl
  rw [if_neg h2, if_neg h2]
  by_cases h3 : toLower k = 0x6E
  · rw [if_pos h3, if_pos h3]; rfl
  rw [if_neg h3, if_neg h3]; rfl

theorem processTestOpt_good {w : List UInt8} {t : TestSet} (h : Spec.TestWord w t) (o : TestOpt) : processTestOpt false o w = (t.apply o, 0, false) := by
  obtain ⟨hn, k, p, rfl, hk, hp⟩ := h
  rw [processTestOpt_num k p t.num hn (strtol_good hp hn) o (letters_cases hk)]
  cases t <;> (simp only [TestSet.letters, List.mem_cons, List.not_mem_nil, or_false] at hk; rcases hk with rfl | rfl <;> rfl)

/-- A word that is not refused is an option. -/
theorem processTestOpt_only {w : List UInt8} {e : Bool} {o : TestOpt} (h : ¬ (processTestOpt e o w).2.1 < 0) : e = false ∧ ∃ t, Spec.TestWord w t := by
  unfold processTestOpt at h
  split at h
  · rename_i k p
    split at h
    · rename_i hk
      dsimp only at h
      split at h
      · simp at h
      · rename_i hc
        simp only [not_or, Decidable.not_not] at hc
        obtain ⟨c1, c2, c3, c4⟩ := hc
        have he : e = false := by cases e <;> simp_all
        obtain ⟨n, hn, ht⟩ := strtol_only c1 (by omega) (by omega)
        refine ⟨he, ?_⟩
        simp only [List.mem_cons, List.not_mem_nil, or_false] at hk
        rcases hk with hk | hk | hk | hk | hk | hk | hk | hk
        · exact ⟨.bytes n, hn, k, p, rfl, by rw [hk]; simp [TestSet.letters], ht⟩
        · exact ⟨.bytes n, hn, k, p, rfl, by rw [hk]; simp [TestSet.letters], ht⟩
        · exact ⟨.max n, hn, k, p, rfl, by rw [hk]; simp [TestSet.letters], ht⟩
        · exact ⟨.max n, hn, k, p, rfl, by rw [hk]; simp [TestSet.letters], ht⟩
        · exact ⟨.min n, hn, k, p, rfl, by rw [hk]; simp [TestSet.letters], ht⟩
        · exact ⟨.min n, hn, k, p, rfl, by rw [hk]; simp [TestSet.letters], ht⟩
        · exact ⟨.prob n, hn, k, p, rfl, by rw [hk]; simp [TestSet.letters], ht⟩
        · exact ⟨.prob n, hn, k, p, rfl, by rw [hk]; simp [TestSet.letters], ht⟩
    · simp at h
  · simp at h

theorem processTestOpt_stale (o : TestOpt) (w : List UInt8) : processTestOpt true o w = (o, -1, true) := by
  unfold processTestOpt
  split
  · split
    · dsimp only
      rw [if_pos (by simp)]; rfl
    · rfl
  · rfl

theorem testOptLoop_good {ts : List (List UInt8)} {l : List TestSet} (h : Spec.TestWords ts l) : ∀ o : TestOpt,
    testOptLoop false o ts = (some (l.foldl (fun o t => t.apply o) o), false) := by
  induction h with
  | nil => intro o; rfl
  | cons hw _ ih =>
    intro o
    rw [testOptLoop, processTestOpt_good hw]
    dsimp only
    rw [if_neg (by decide), ih]; rfl

theorem testOptLoop_only : ∀ (ts : List (List UInt8)) (e : Bool) (o : TestOpt), (testOptLoop e o ts).1 ≠ none → ∃ l, Spec.TestWords ts l := by
  intro ts
  induction ts with
  | nil => intro e o _; exact ⟨[], Spec.TestWords.nil⟩
  | cons t ts ih =>
    intro e o h
    rw [testOptLoop] at h
    by_cases g : (processTestOpt e o t).2.1 < 0
    · rw [if_pos g] at h; exact absurd rfl h
    · rw [if_neg g] at h
      obtain ⟨l, hl⟩ := ih _ _ h
      obtain ⟨_, x, hx⟩ := processTestOpt_only g
      exact ⟨x :: l, Spec.TestWords.cons hx hl⟩

end Conman
