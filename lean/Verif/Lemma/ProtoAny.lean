import Verif.Lemma.ProtoRsp

/-
The parsers of messages on arbitrary input.
-/
namespace Conman
open Spec

/-- A reader that has passed some of the text, and is still within it. -/
def Adv (l l' : Lex) : Prop := (0 : UInt8) ∈ l'.pos ∧ ∃ a, l.pos = a ++ l'.pos

theorem Adv.len {l l' : Lex} (h : Adv l l') : l'.pos.length ≤ l.pos.length := by
  obtain ⟨_, a, e⟩ := h
  rw [e, List.length_append]; omega

theorem Adv.trans {l l' l'' : Lex} (h : Adv l l') (h' : Adv l' l'') : Adv l l'' := by
  obtain ⟨_, a, e⟩ := h
  obtain ⟨hz, b, e'⟩ := h'
  exact ⟨hz, a ++ b, by rw [e, e', List.append_assoc]⟩

theorem Spec.HugeNumber.left {a s : List UInt8} (h : HugeNumber s) : HugeNumber (a ++ s) := by
  obtain ⟨x, d, b, rfl, h⟩ := h
  exact ⟨a ++ x, d, b, by simp, h⟩

theorem split_nul {s : List UInt8} (h : (0 : UInt8) ∈ s) : ∃ a junk, s = a ++ 0 :: junk ∧ (0 : UInt8) ∉ a := by
  induction s with
  | nil => simp at h
  | cons c s ih =>
    by_cases g : c = 0
    · subst g; exact ⟨[], s, rfl, by simp⟩
    · simp only [List.mem_cons] at h
      rcases h with h | h
      · exact absurd h.symm g
      · obtain ⟨a, j, e, hz⟩ := ih h
        refine ⟨c :: a, j, by rw [e]; rfl, ?_⟩
        simp only [List.mem_cons, not_or]
        exact ⟨fun h => g h.symm, hz⟩

theorem atoi_signed_none {s : UInt8} (hs : s = 0x2D ∨ s = 0x2B) {w : List UInt8} (hw : ∀ c ∈ w, digit c) (h : atoi (s :: w) = none) : 2147483647 < digitsVal w := by
  have h1 : (s :: w).dropWhile isSpace = s :: w := by
    rw [List.dropWhile_cons, if_neg]
    rcases hs with rfl | rfl <;> decide
  unfold atoi at h
  simp only [h1, List.head?_cons, Option.some.injEq] at h
  rcases hs with rfl | rfl
  · simp [takeWhile_digits hw] at h
    omega
  · simp [takeWhile_digits hw] at h
    omega

theorem next_any (l : Lex) (h : (0 : UInt8) ∈ l.pos) : ∃ l' t, lexNext protoStrs l = some (l', t) ∧ Adv l l' ∧ (t = lexEof ∨ l'.pos.length < l.pos.length) ∧
    (t = lexInt → atoi l'.text = none → HugeNumber l.pos) := by
  obtain ⟨s, junk, hs, hz⟩ := split_nul h
  obtain ⟨a, b, r, text, t, e, _, ht, hn⟩ := lexNext_spec protoOk junk l s hs hz
  refine ⟨_, _, hn, ⟨by simp, a ++ b, by rw [hs, e]; simp⟩, ?_, ?_⟩
  · by_cases g : t = .eof
    · left; rw [g]; rfl
    · right
      have hb : b ≠ [] := fun g' => g ((Spec.IsToken.facts protoOk ht).2.2.1.1 g')
      have := List.length_pos_iff.2 hb
      rw [hs, e]
      simp only [List.length_append, List.length_cons]
      omega
  · intro hi ha
    rw [hs, e]
    dsimp only at ha
    cases ht with
    | number w r h0 hw hr =>
      refine Spec.HugeNumber.left (s := b ++ r ++ 0 :: junk) (a := a) ?_ |> fun h => by simpa using h
      have hd : ∀ c ∈ b.take 1023, digit c := fun c hc => hw c (List.mem_of_mem_take hc)
      refine ⟨[], b.take 1023, b.drop 1023 ++ (r ++ 0 :: junk), ?_, hd, ?_⟩
      · rw [List.nil_append, ← List.append_assoc, List.take_append_drop, List.append_assoc]
      · rcases Nat.lt_or_ge 2147483647 (digitsVal (b.take 1023)) with g | g
        · exact g
        · rw [atoi_digits hd g] at ha; cases ha
    | signed sg hsg w r h0 hw hr =>
      refine Spec.HugeNumber.left (s := (sg :: w) ++ r ++ 0 :: junk) (a := a) ?_ |> fun h => by simpa using h
      have hd : ∀ c ∈ w.take 1022, digit c := fun c hc => hw c (List.mem_of_mem_take hc)
      refine ⟨[sg], w.take 1022, w.drop 1022 ++ (r ++ 0 :: junk), ?_, hd, ?_⟩
      · have : w = w.take 1022 ++ w.drop 1022 := (List.take_append_drop _ _).symm
        rw [List.singleton_append, List.cons_append, List.cons_append, List.cons_append, ← List.append_assoc, ← this, List.append_assoc]
      · rw [List.take_succ_cons] at ha
        exact atoi_signed_none hsg hd ha
    | eof => cases hi
    | lf => cases hi
    | crlf => cases hi
    | cr => cases hi
    | quoted => cases hi
    | unmatched => cases hi
    | keyword c w r _ _ _ i => simp only [Token.code, lexInt] at hi; omega
    | word => cases hi
    | chr c =>
      have := c.toNat_lt
      simp only [Token.code, lexInt] at hi
      split at hi <;> omega

theorem low_bits (x : UInt8) : x &&& 0x7F < 128 := by
  have : ∀ n : Fin 256, UInt8.ofNat n.1 &&& 0x7F < 128 := by decide +kernel
  have := this ⟨x.toNat, x.toNat_lt⟩
  simpa using this

theorem pos_of_ne {x : UInt8} (h : x ≠ 0) : 0 < x := by
  rw [UInt8.lt_iff_toNat_lt]
  have : x.toNat ≠ 0 := fun g => h (UInt8.toNat_inj.1 (by simpa using g))
  show 0 < x.toNat
  omega

theorem mem_takeWhile_true {p : UInt8 → Bool} {x : UInt8} : ∀ {s : List UInt8}, x ∈ s.takeWhile p → p x = true
  | [], h => by simp at h
  | c :: s, h => by
    rw [List.takeWhile_cons] at h
    by_cases g : p c = true
    · rw [if_pos g] at h
      rcases List.mem_cons.1 h with rfl | h
      · exact g
      · exact mem_takeWhile_true h
    · rw [if_neg g] at h; simp at h

theorem decode_ok {t : List UInt8} (h : t.length ≤ 1023) : NameOk (lexDecode t) := by
  unfold lexDecode
  constructor
  · have := List.Sublist.length_le (List.takeWhile_sublist (l := t.map (fun c => c &&& 0x7F)) (fun x => decide (x ≠ 0)))
    rw [List.length_map] at this
    omega
  · intro x hx
    have h1 := mem_takeWhile_true hx
    have h2 := (List.takeWhile_sublist _).subset hx
    obtain ⟨y, _, rfl⟩ := List.mem_map.1 h2
    exact ⟨pos_of_ne (by simpa using h1), low_bits y⟩

theorem text_len (l : Lex) (h : (0 : UInt8) ∈ l.pos) {l' : Lex} {t : Int} (h' : lexNext protoStrs l = some (l', t)) : l'.text.length ≤ 1023 := by
  obtain ⟨s, junk, hs, hz⟩ := split_nul h
  obtain ⟨a, b, r, text, t, e, _, ht, hn⟩ := lexNext_spec protoOk junk l s hs hz
  rw [hn] at h'
  cases h'
  exact (Spec.IsToken.facts protoOk ht).2.2.2

theorem strField_any (l : Lex) (h : (0 : UInt8) ∈ l.pos) : ∃ l' t, strField l = some (l', t) ∧ Adv l l' ∧ ∀ c, fieldVal t = some c → NameOk c := by
  obtain ⟨l1, t1, h1, a1, _⟩ := next_any l h
  unfold strField
  rw [h1, Option.bind_some]
  dsimp only
  by_cases g : t1 = 0x3D
  · rw [if_pos g]
    obtain ⟨l2, t2, h2, a2, _⟩ := next_any l1 a1.1
    have hlen := text_len l1 a1.1 h2
    rw [h2, Option.bind_some]
    refine ⟨_, _, rfl, a1.trans a2, ?_⟩
    intro c hc
    dsimp only at hc
    split at hc
    · unfold fieldVal at hc
      dsimp only at hc
      split at hc
      · cases hc
      · cases hc; exact decode_ok hlen
    · cases hc
  · rw [if_neg g]
    exact ⟨_, _, rfl, a1, fun c hc => by cases hc⟩

theorem optField_any (l : Lex) (h : (0 : UInt8) ∈ l.pos) : ∃ l' t, optField l = some (l', t) ∧ Adv l l' := by
  obtain ⟨l1, t1, h1, a1, _⟩ := next_any l h
  unfold optField
  rw [h1, Option.bind_some]
  dsimp only
  by_cases g : t1 = 0x3D
  · rw [if_pos g]
    obtain ⟨l2, t2, h2, a2, _⟩ := next_any l1 a1.1
    rw [h2, Option.bind_some]
    exact ⟨_, _, rfl, a1.trans a2⟩
  · rw [if_neg g]
    exact ⟨_, _, rfl, a1⟩

theorem intField_any (l : Lex) (h : (0 : UInt8) ∈ l.pos) : ∃ l' t, intField l = some (l', t) ∧ Adv l l' ∧ ∀ s, t = some s → atoi s = none → HugeNumber l.pos := by
  obtain ⟨l1, t1, h1, a1, _⟩ := next_any l h
  unfold intField
  rw [h1, Option.bind_some]
  dsimp only
  by_cases g : t1 = 0x3D
  · rw [if_pos g]
    obtain ⟨l2, t2, h2, a2, _, h3⟩ := next_any l1 a1.1
    rw [h2, Option.bind_some]
    refine ⟨_, _, rfl, a1.trans a2, ?_⟩
    intro s hs ha
    dsimp only at hs
    split at hs
    · next g2 =>
      cases hs
      obtain ⟨_, a, e⟩ := a1
      rw [e]
      exact (h3 g2 ha).left
    · cases hs
  · rw [if_neg g]
    exact ⟨_, _, rfl, a1, fun s hs => by cases hs⟩

theorem not_end {t k : Int} (hk : t = k) (h : k ≠ 0) {P : Prop} (hp : t = lexEof ∨ P) : P := by
  rcases hp with hp | hp
  · exact absurd (hk.symm.trans hp) h
  · exact hp

/-- What parsing a request may change. -/
def NamesFrom (q q' : SrvReq) : Prop := ∀ c ∈ q'.consoles, c ∈ q.consoles ∨ NameOk c

theorem NamesFrom.refl (q : SrvReq) : NamesFrom q q := fun _ h => Or.inl h

theorem NamesFrom.trans {q q' q'' : SrvReq} (h : NamesFrom q q') (h' : NamesFrom q' q'') : NamesFrom q q'' := by
  intro c hc
  rcases h' c hc with hc | hc
  · exact h c hc
  · exact Or.inr hc

theorem NamesFrom.add {q : SrvReq} {f : Option (List UInt8)} (h : ∀ c, f = some c → NameOk c) : NamesFrom q (addConsole q f) := by
  cases f with
  | none => exact .refl q
  | some c =>
    intro x hx
    simp only [addConsole, List.mem_append, List.mem_singleton] at hx
    rcases hx with hx | rfl
    · exact Or.inl hx
    · exact Or.inr (h x rfl)

theorem setOpt_consoles (q : SrvReq) (t : Int) : (setOpt q t).consoles = q.consoles ∧ (setOpt q t).cmd = q.cmd := by
  unfold setOpt
  by_cases h1 : t = tokBroadcast
  · rw [if_pos h1]; exact ⟨rfl, rfl⟩
  rw [if_neg h1]
  by_cases h1 : t = tokForce
  · rw [if_pos h1]; exact ⟨rfl, rfl⟩
  rw [if_neg h1]
  by_cases h1 : t = tokJoin
  · rw [if_pos h1]; exact ⟨rfl, rfl⟩
  rw [if_neg h1]
  by_cases h1 : t = tokQuiet
  · rw [if_pos h1]; exact ⟨rfl, rfl⟩
  rw [if_neg h1]
  by_cases h1 : t = tokRegex
  · rw [if_pos h1]; exact ⟨rfl, rfl⟩
  rw [if_neg h1]; exact ⟨rfl, rfl⟩

theorem NamesFrom.opt {q : SrvReq} {f : Option Int} : NamesFrom q (applyOpt q f) := by
  cases f with
  | none => exact .refl q
  | some t =>
    intro x hx
    simp only [applyOpt, (setOpt_consoles q t).1] at hx
    exact Or.inl hx

theorem parseGreeting_any : ∀ (n : Nat) (l : Lex) (q : SrvReq), (0 : UInt8) ∈ l.pos → l.pos.length ≤ n → ∃ l' q', parseGreeting n l q = some (l', q') ∧ Adv l l' := by
  intro n
  induction n with
  | zero => intro l q h hn; have := List.length_pos_of_mem h; omega
  | succ n ih =>
    intro l q h hn
    obtain ⟨l1, t, h1, a1, hlt, _⟩ := next_any l h
    rw [parseGreeting, h1, Option.bind_some]
    dsimp only
    by_cases g : t = tokUser
    · have hlt' := not_end g (by decide) hlt
      rw [if_pos g]
      obtain ⟨l2, f, h2, a2, hf⟩ := strField_any l1 a1.1
      rw [h2, Option.bind_some]
      have := a2.len
      obtain ⟨l3, q3, h3, a3⟩ := ih l2 (setUser q (fieldVal f)) a2.1 (by omega)
      exact ⟨l3, q3, h3, (a1.trans a2).trans a3⟩
    rw [if_neg g]
    by_cases g : t = tokTty
    · have hlt' := not_end g (by decide) hlt
      rw [if_pos g]
      obtain ⟨l2, f, h2, a2, hf⟩ := strField_any l1 a1.1
      rw [h2, Option.bind_some]
      have := a2.len
      obtain ⟨l3, q3, h3, a3⟩ := ih l2 (setTty q (fieldVal f)) a2.1 (by omega)
      exact ⟨l3, q3, h3, (a1.trans a2).trans a3⟩
    rw [if_neg g]
    by_cases g : t = lexEof ∨ t = lexEol
    · rw [if_pos g]; exact ⟨_, _, rfl, a1⟩
    · rw [if_neg g]
      have hlt' : l1.pos.length < l.pos.length := by
        rcases hlt with h | h
        · exact absurd (Or.inl h) g
        · exact h
      obtain ⟨l3, q3, h3, a3⟩ := ih l1 q a1.1 (by omega)
      exact ⟨l3, q3, h3, a1.trans a3⟩

theorem greetingLoop_any : ∀ (n : Nat) (l : Lex) (q : SrvReq), (0 : UInt8) ∈ l.pos → l.pos.length ≤ n → ∃ q', greetingLoop n l q = some q' := by
  intro n
  induction n with
  | zero => intro l q h hn; have := List.length_pos_of_mem h; omega
  | succ n ih =>
    intro l q h hn
    obtain ⟨l1, t, h1, a1, hlt, _⟩ := next_any l h
    rw [greetingLoop, h1, Option.bind_some]
    dsimp only
    by_cases g : t = tokHello
    · have hlt' := not_end g (by decide) hlt
      rw [if_pos g]
      obtain ⟨l2, q2, h2, a2⟩ := parseGreeting_any (n + 1) l1 q a1.1 (by omega)
      have := a2.len
      rw [h2, Option.bind_some]
      exact ih l2 q2 a2.1 (by omega)
    rw [if_neg g]
    by_cases g : t = lexEof ∨ t = lexEol
    · rw [if_pos g]; exact ⟨_, rfl⟩
    · rw [if_neg g]
      have hlt' : l1.pos.length < l.pos.length := by
        rcases hlt with h | h
        · exact absurd (Or.inl h) g
        · exact h
      exact ih l1 q a1.1 (by omega)

theorem parseCmdOpts_any : ∀ (n : Nat) (l : Lex) (q : SrvReq), (0 : UInt8) ∈ l.pos → l.pos.length ≤ n →
    ∃ l' q', parseCmdOpts n l q = some (l', q') ∧ Adv l l' ∧ NamesFrom q q' := by
  intro n
  induction n with
  | zero => intro l q h hn; have := List.length_pos_of_mem h; omega
  | succ n ih =>
    intro l q h hn
    obtain ⟨l1, t, h1, a1, hlt, _⟩ := next_any l h
    rw [parseCmdOpts, h1, Option.bind_some]
    dsimp only
    by_cases g : t = tokConsole
    · have hlt' := not_end g (by decide) hlt
      rw [if_pos g]
      obtain ⟨l2, f, h2, a2, hf⟩ := strField_any l1 a1.1
      rw [h2, Option.bind_some]
      have := a2.len
      obtain ⟨l3, q3, h3, a3, n3⟩ := ih l2 (addConsole q (fieldVal f)) a2.1 (by omega)
      exact ⟨l3, q3, h3, (a1.trans a2).trans a3, (NamesFrom.add hf).trans n3⟩
    rw [if_neg g]
    by_cases g : t = tokOption
    · have hlt' := not_end g (by decide) hlt
      rw [if_pos g]
      obtain ⟨l2, f, h2, a2⟩ := optField_any l1 a1.1
      rw [h2, Option.bind_some]
      have := a2.len
      obtain ⟨l3, q3, h3, a3, n3⟩ := ih l2 (applyOpt q f) a2.1 (by omega)
      exact ⟨l3, q3, h3, (a1.trans a2).trans a3, NamesFrom.opt.trans n3⟩
    rw [if_neg g]
    by_cases g : t = lexEof ∨ t = lexEol
    · rw [if_pos g]; exact ⟨_, _, rfl, a1, .refl q⟩
    · rw [if_neg g]
      have hlt' : l1.pos.length < l.pos.length := by
        rcases hlt with h | h
        · exact absurd (Or.inl h) g
        · exact h
      obtain ⟨l3, q3, h3, a3, r3⟩ := ih l1 q a1.1 (by omega)
      exact ⟨l3, q3, h3, a1.trans a3, r3⟩

theorem reqLoop_any : ∀ (n : Nat) (l : Lex) (q : SrvReq), (0 : UInt8) ∈ l.pos → l.pos.length ≤ n → ∃ q', reqLoop n l q = some q' ∧ NamesFrom q q' := by
  intro n
  induction n with
  | zero => intro l q h hn; have := List.length_pos_of_mem h; omega
  | succ n ih =>
    intro l q h hn
    obtain ⟨l1, t, h1, a1, hlt, _⟩ := next_any l h
    have cmd : ∀ c, l1.pos.length < l.pos.length → ∃ q', ((parseCmdOpts (n + 1) l1 { q with cmd := some c }).bind (fun p => reqLoop n p.1 p.2)) = some q' ∧ NamesFrom q q' := by
      intro c hlt'
      obtain ⟨l2, q2, h2, a2, n2⟩ := parseCmdOpts_any (n + 1) l1 { q with cmd := some c } a1.1 (by omega)
      have := a2.len
      rw [h2, Option.bind_some]
      obtain ⟨q3, h3, n3⟩ := ih l2 q2 a2.1 (by omega)
      exact ⟨q3, h3, NamesFrom.trans (q' := { q with cmd := some c }) (fun c hc => Or.inl hc) (n2.trans n3)⟩
    rw [reqLoop, h1, Option.bind_some]
    dsimp only
    by_cases g : t = tokConnect
    · rw [if_pos g]; exact cmd _ (not_end g (by decide) hlt)
    rw [if_neg g]
    by_cases g : t = tokMonitor
    · rw [if_pos g]; exact cmd _ (not_end g (by decide) hlt)
    rw [if_neg g]
    by_cases g : t = tokQuery
    · rw [if_pos g]; exact cmd _ (not_end g (by decide) hlt)
    rw [if_neg g]
    by_cases g : t = lexEof ∨ t = lexEol
    · rw [if_pos g]; exact ⟨_, rfl, .refl q⟩
    · rw [if_neg g]
      have hlt' : l1.pos.length < l.pos.length := by
        rcases hlt with h | h
        · exact absurd (Or.inl h) g
        · exact h
      exact ih l1 q a1.1 (by omega)

theorem parseRspOk_any : ∀ (n : Nat) (l : Lex) (q : CliRsp), (0 : UInt8) ∈ l.pos → l.pos.length ≤ n → ∃ q', parseRspOk n l q = some q' := by
  intro n
  induction n with
  | zero => intro l q h hn; have := List.length_pos_of_mem h; omega
  | succ n ih =>
    intro l q h hn
    obtain ⟨l1, t, h1, a1, hlt, _⟩ := next_any l h
    rw [parseRspOk, h1, Option.bind_some]
    dsimp only
    by_cases g : t = tokConsole
    · have hlt' := not_end g (by decide) hlt
      rw [if_pos g]
      obtain ⟨l2, f, h2, a2, _⟩ := strField_any l1 a1.1
      rw [h2, Option.bind_some]
      have := a2.len
      exact ih l2 _ a2.1 (by omega)
    rw [if_neg g]
    by_cases g : t = tokOption
    · have hlt' := not_end g (by decide) hlt
      rw [if_pos g]
      obtain ⟨l2, f, h2, a2⟩ := optField_any l1 a1.1
      rw [h2, Option.bind_some]
      have := a2.len
      exact ih l2 _ a2.1 (by omega)
    rw [if_neg g]
    by_cases g : t = lexEof ∨ t = lexEol
    · rw [if_pos g]; exact ⟨_, rfl⟩
    · rw [if_neg g]
      have hlt' : l1.pos.length < l.pos.length := by
        rcases hlt with h | h
        · exact absurd (Or.inl h) g
        · exact h
      exact ih l1 q a1.1 (by omega)

theorem Adv.huge {l l' : Lex} (h : Adv l l') (g : HugeNumber l'.pos) : HugeNumber l.pos := by
  obtain ⟨_, a, e⟩ := h
  rw [e]; exact g.left

theorem parseRspErr_any : ∀ (n : Nat) (l : Lex) (err : Int) (buf : List UInt8) (q : CliRsp), (0 : UInt8) ∈ l.pos → l.pos.length ≤ n → ¬ HugeNumber l.pos →
    ∃ q', parseRspErr n l err buf q = some q' := by
  intro n
  induction n with
  | zero => intro l err buf q h hn; have := List.length_pos_of_mem h; omega
  | succ n ih =>
    intro l err buf q h hn hh
    obtain ⟨l1, t, h1, a1, hlt, _⟩ := next_any l h
    rw [parseRspErr, h1, Option.bind_some]
    dsimp only
    by_cases g : t = tokCode
    · have hlt' := not_end g (by decide) hlt
      rw [if_pos g]
      obtain ⟨l2, f, h2, a2, hf⟩ := intField_any l1 a1.1
      rw [h2, Option.bind_some]
      have := a2.len
      have hh2 : ¬ HugeNumber l2.pos := fun g => hh ((a1.trans a2).huge g)
      dsimp only
      cases f with
      | none => exact ih l2 _ _ _ a2.1 (by omega) hh2
      | some s =>
        cases ha : atoi s with
        | none => exact absurd (a1.huge (hf s rfl ha)) hh
        | some v => simp only [ha, Option.bind_some]; exact ih l2 _ _ _ a2.1 (by omega) hh2
    rw [if_neg g]
    by_cases g : t = tokMessage
    · have hlt' := not_end g (by decide) hlt
      rw [if_pos g]
      obtain ⟨l2, f, h2, a2, _⟩ := strField_any l1 a1.1
      rw [h2, Option.bind_some]
      have := a2.len
      exact ih l2 _ _ _ a2.1 (by omega) (fun g => hh ((a1.trans a2).huge g))
    rw [if_neg g]
    by_cases g : t = lexEof ∨ t = lexEol
    · rw [if_pos g]; exact ⟨_, rfl⟩
    · rw [if_neg g]
      have hlt' : l1.pos.length < l.pos.length := by
        rcases hlt with h | h
        · exact absurd (Or.inl h) g
        · exact h
      exact ih l1 _ _ _ a1.1 (by omega) (fun g => hh (a1.huge g))

theorem rspLoop_any : ∀ (n : Nat) (l : Lex), (0 : UInt8) ∈ l.pos → l.pos.length ≤ n → ¬ HugeNumber l.pos → ∃ q', rspLoop n l = some q' := by
  intro n
  induction n with
  | zero => intro l h hn; have := List.length_pos_of_mem h; omega
  | succ n ih =>
    intro l h hn hh
    obtain ⟨l1, t, h1, a1, hlt, _⟩ := next_any l h
    rw [rspLoop, h1, Option.bind_some]
    dsimp only
    by_cases g : t = tokOk
    · have hlt' := not_end g (by decide) hlt
      rw [if_pos g]
      obtain ⟨q, hq⟩ := parseRspOk_any (n + 1) l1 {} a1.1 (by omega)
      rw [hq]; exact ⟨_, rfl⟩
    rw [if_neg g]
    by_cases g : t = tokError
    · have hlt' := not_end g (by decide) hlt
      rw [if_pos g]
      obtain ⟨q, hq⟩ := parseRspErr_any (n + 1) l1 0 [] {} a1.1 (by omega) (fun g => hh (a1.huge g))
      rw [hq]; exact ⟨_, rfl⟩
    rw [if_neg g]
    by_cases g : t = lexEof ∨ t = lexEol
    · rw [if_pos g]; exact ⟨_, rfl⟩
    · rw [if_neg g]
      have hlt' : l1.pos.length < l.pos.length := by
        rcases hlt with h | h
        · exact absurd (Or.inl h) g
        · exact h
      exact ih l1 a1.1 (by omega) (fun g => hh (a1.huge g))

end Conman
