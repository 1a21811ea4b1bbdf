import Verif.Lemma.ProtoRsp
import Verif.Lemma.ProtoAny

/-
Lemmas about the user names that a daemon can receive.
-/
namespace Conman
open Spec

/-- All bytes with the highest bit set. -/
def Spec.high (u : List UInt8) : List UInt8 := u.map (· ||| 0x80)

theorem high_byte : ∀ b : UInt8, (b ||| 0x80) ≠ 0x27 ∧ ¬ isNl (b ||| 0x80) ∧ (b ||| 0x80) ≠ 0 ∧ (b < 128 → (b ||| 0x80) &&& 0x7F = b) := by
  have : ∀ n : Fin 256, (UInt8.ofNat n.1 ||| 0x80) ≠ 0x27 ∧ ¬ isNl (UInt8.ofNat n.1 ||| 0x80) ∧ (UInt8.ofNat n.1 ||| 0x80) ≠ 0 ∧
      (UInt8.ofNat n.1 < 128 → (UInt8.ofNat n.1 ||| 0x80) &&& 0x7F = UInt8.ofNat n.1) := by decide +kernel
  intro b
  have := this ⟨b.toNat, b.toNat_lt⟩
  simpa using this

theorem high_safe (u : List UInt8) : ∀ c ∈ high u, c ≠ 0x27 ∧ ¬ isNl c ∧ c ≠ 0 := by
  intro c hc
  obtain ⟨b, _, rfl⟩ := List.mem_map.1 hc
  exact ⟨(high_byte b).1, (high_byte b).2.1, (high_byte b).2.2.1⟩

theorem high_names {u : List UInt8} (h : ∀ b ∈ u, 0 < b ∧ b < 128) : lexDecode (high u) = u := by
  unfold lexDecode high
  rw [List.map_map]
  have e : u.map ((fun c => c &&& 0x7F) ∘ (· ||| 0x80)) = u := by
    have : u.map ((fun c => c &&& 0x7F) ∘ (· ||| 0x80)) = u.map id := List.map_congr_left fun b hb => (high_byte b).2.2.2 (h b hb).2
    rw [this, List.map_id]
  rw [e]
  clear e
  induction u with
  | nil => rfl
  | cons x u ih =>
    have h0 : x ≠ 0 := by rintro rfl; exact absurd (h 0 List.mem_cons_self).1 (by decide)
    rw [List.takeWhile_cons, if_pos (by simpa using h0), ih (fun b hb => h b (List.mem_cons_of_mem _ hb))]

/-- A greeting with the characters `t` for the user. -/
def Spec.rawHello (t : List UInt8) : List UInt8 := bs "HELLO USER='" ++ t ++ bs "'\n"

theorem raw_greeting (junk t : List UInt8) (n : Nat) (l : Lex) (q : SrvReq) (ht : ∀ c ∈ t, c ≠ 0x27 ∧ ¬ isNl c ∧ c ≠ 0) (hl : t.length ≤ 1023) (hne : t ≠ [])
    (hpos : l.pos = rawHello t ++ 0 :: junk) : greetingLoop (n + 3) l q = some { q with user := some (lexDecode t) } := by
  have eH : bs "HELLO USER='" = bs "HELLO" ++ (bs " " ++ (bs "USER" ++ (bs "=" ++ bs "'"))) := by decide
  have eN : bs "'\n" = bs "'" ++ bs "\n" := by decide
  have e1 : bs "'" = [0x27] := by decide
  have e2 : bs "\n" = [0x0A] := by decide
  have e3 : bs "=" = [0x3D] := by decide
  have e4 : bs " " = [0x20] := by decide
  have tz : (0 : UInt8) ∉ t := fun hm => (ht 0 hm).2.2 rfl
  unfold rawHello at hpos
  rw [eH, eN, e1, e2, e3, e4] at hpos
  simp only [List.append_assoc, List.cons_append, List.nil_append] at hpos
  have z1 : (0 : UInt8) ∉ 0x27 :: (t ++ [0x27, 0x0A]) := by
    simp only [List.mem_cons, List.mem_append, List.not_mem_nil, or_false, not_or]
    exact ⟨by decide, tz, by decide, by decide⟩
  obtain ⟨l0, h0, p0⟩ := next_key (i := 6) (k := bs "HELLO") rfl l [] (0x20 :: (bs "USER" ++ 0x3D :: 0x27 :: (t ++ [0x27, 0x0A]))) junk (Or.inl rfl)
    (by rw [hpos]; simp) (by rintro ⟨c, hc, g⟩; cases hc; revert g; decide) (by
      simp only [List.mem_cons, List.mem_append, not_or]
      exact ⟨by decide, by decide, by decide, by simpa using z1⟩)
  obtain ⟨l1, h1, p1⟩ := next_key (i := 17) (k := bs "USER") rfl l0 [0x20] (0x3D :: 0x27 :: (t ++ [0x27, 0x0A])) junk (Or.inr rfl)
    (by rw [p0]; simp) (by rintro ⟨c, hc, g⟩; cases hc; revert g; decide) (by
      simp only [List.mem_cons, not_or]
      exact ⟨by decide, by simpa using z1⟩)
  obtain ⟨l2, h2, p2⟩ := next_eq l1 (0x27 :: (t ++ [0x27, 0x0A])) junk (by rw [p1]; simp) z1
  obtain ⟨l3, h3, p3, t3⟩ : ∃ l3 : Lex, lexNext protoStrs l2 = some (l3, lexStr) ∧ l3.pos = bs "\n" ++ 0 :: junk ∧ l3.text = t := by
    refine ⟨_, lexNext_complete protoOk junk l2 (a := []) (b := 0x27 :: t ++ [0x27]) (r := [0x0A]) (by rw [p2]; simp) (.nil _)
      (.quoted 0x27 (Or.inr rfl) t [0x0A] (fun c hc => ⟨(ht c hc).1, (ht c hc).2.1⟩)) (by
        simp only [List.nil_append, List.mem_append, List.mem_cons, List.not_mem_nil, or_false, not_or]
        exact ⟨⟨⟨by decide, tz⟩, by decide⟩, by decide⟩), by rw [e2], List.take_of_length_le hl⟩
  have hsf : strField l1 = some (l3, some t) := by
    unfold strField
    rw [h2, Option.bind_some, if_pos rfl, h3, Option.bind_some, if_pos rfl, t3]
  obtain ⟨l4, h4, p4⟩ := parseGreeting_nl junk (n + 1) l3 (setUser q (fieldVal (some t))) p3
  obtain ⟨l5, h5, _⟩ := next_eof l4 junk p4
  have k0 : (259 : Int) + ((6 : Nat) : Int) = tokHello := by decide
  have k1 : (259 : Int) + ((17 : Nat) : Int) = tokUser := by decide
  rw [k0] at h0
  rw [k1] at h1
  rw [greetingLoop, h0, Option.bind_some]
  dsimp only
  rw [if_pos rfl, parseGreeting, h1, Option.bind_some]
  dsimp only
  rw [if_pos rfl, hsf, Option.bind_some]
  dsimp only
  rw [h4, Option.bind_some, greetingLoop, h5, Option.bind_some]
  dsimp only
  rw [if_neg (by decide), if_pos (Or.inl rfl)]
  unfold fieldVal
  dsimp only
  rw [if_neg hne]
  rfl

/-- What a client says of itself arrives as a C string of 7-bit characters. -/
def NamesOk (q : SrvReq) : Prop := (∀ u, q.user = some u → NameOk u) ∧ ∀ t, q.tty = some t → NameOk t

theorem NamesOk.user {q : SrvReq} (h : NamesOk q) {x : Option (List UInt8)} (hx : ∀ c, x = some c → NameOk c) : NamesOk (setUser q x) := by
  cases x with
  | none => exact h
  | some u => exact ⟨fun v hv => by cases hv; exact hx u rfl, h.2⟩

theorem NamesOk.tty {q : SrvReq} (h : NamesOk q) {x : Option (List UInt8)} (hx : ∀ c, x = some c → NameOk c) : NamesOk (setTty q x) := by
  cases x with
  | none => exact h
  | some u => exact ⟨h.1, fun v hv => by cases hv; exact hx u rfl⟩

theorem parseGreeting_names : ∀ (n : Nat) (l : Lex) (q : SrvReq), (0 : UInt8) ∈ l.pos → NamesOk q → ∀ r, parseGreeting n l q = some r → NamesOk r.2 ∧ (0 : UInt8) ∈ r.1.pos := by
  intro n
  induction n with
  | zero => intro l q h hq r hr; rw [parseGreeting] at hr; cases hr
  | succ n ih =>
    intro l q h hq r hr
    obtain ⟨l1, t, h1, a1, -⟩ := next_any l h
    rw [parseGreeting, h1, Option.bind_some] at hr
    dsimp only at hr
    obtain ⟨l2, f, h2, a2, hf⟩ := strField_any l1 a1.1
    by_cases g : t = tokUser
    · rw [if_pos g, h2, Option.bind_some] at hr
      exact ih l2 _ a2.1 (hq.user hf) r hr
    rw [if_neg g] at hr
    by_cases g : t = tokTty
    · rw [if_pos g, h2, Option.bind_some] at hr
      exact ih l2 _ a2.1 (hq.tty hf) r hr
    rw [if_neg g] at hr
    by_cases g : t = lexEof ∨ t = lexEol
    · rw [if_pos g] at hr; cases hr; exact ⟨hq, a1.1⟩
    · rw [if_neg g] at hr; exact ih l1 q a1.1 hq r hr

theorem greetingLoop_names : ∀ (n : Nat) (l : Lex) (q : SrvReq), (0 : UInt8) ∈ l.pos → NamesOk q → ∀ r, greetingLoop n l q = some r → NamesOk r := by
  intro n
  induction n with
  | zero => intro l q h hq r hr; rw [greetingLoop] at hr; cases hr
  | succ n ih =>
    intro l q h hq r hr
    obtain ⟨l1, t, h1, a1, -⟩ := next_any l h
    rw [greetingLoop, h1, Option.bind_some] at hr
    dsimp only at hr
    by_cases g : t = tokHello
    · rw [if_pos g] at hr
      cases hp : parseGreeting (n + 1) l1 q with
      | none => rw [hp] at hr; cases hr
      | some p =>
        rw [hp, Option.bind_some] at hr
        obtain ⟨g1, g2⟩ := parseGreeting_names _ _ _ a1.1 hq p hp
        exact ih p.1 p.2 g2 g1 r hr
    rw [if_neg g] at hr
    by_cases g : t = lexEof ∨ t = lexEol
    · rw [if_pos g] at hr; cases hr; exact hq
    · rw [if_neg g] at hr; exact ih l1 q a1.1 hq r hr

end Conman
