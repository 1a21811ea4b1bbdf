import Verif.Model.Ipmi
import Verif.Lemma.Opts
import Verif.Lemma.CStr

/-
Lemmas on IPMI options.
-/
namespace Conman
open Spec

/-! ### Keys -/

theorem toInt_hex {c : UInt8} (h : hexDigit c) : toInt c = UInt8.ofNat (hexVal c) ∧ hexVal c < 16 :=
  byte_all (P := fun c => hexDigit c → toInt c = UInt8.ofNat (hexVal c) ∧ hexVal c < 16) (by decide +kernel) c h

theorem isHex_iff (c : UInt8) : isHex c = true ↔ hexDigit c := byte_all (P := fun c => isHex c = true ↔ hexDigit c) (by decide +kernel) c

theorem nibbles {a b : Nat} (ha : a < 16) (hb : b < 16) :
    (UInt8.ofNat a <<< 4) &&& 0xF0 = UInt8.ofNat (16 * a) ∧ ((UInt8.ofNat a <<< 4) &&& 0xF0) ||| (UInt8.ofNat b &&& 0x0F) = UInt8.ofNat (16 * a + b) := by
  have : ∀ a b : Fin 16, (UInt8.ofNat a.1 <<< 4) &&& 0xF0 = UInt8.ofNat (16 * a.1) ∧
      ((UInt8.ofNat a.1 <<< 4) &&& 0xF0) ||| (UInt8.ofNat b.1 &&& 0x0F) = UInt8.ofNat (16 * a.1 + b.1) := by decide +kernel
  exact this ⟨a, ha⟩ ⟨b, hb⟩

theorem pack_length : ∀ ds : List UInt8, (pack ds).length = (ds.length + 1) / 2
  | [] => rfl
  | [_] => by simp [pack]
  | a :: b :: r => by
    rw [pack, List.length_cons, pack_length r]
    simp only [List.length_cons]; omega

theorem keyLoop_pack (e : Nat) : ∀ (ds : List UInt8), (∀ c ∈ ds, hexDigit c) → ∀ (dst : List UInt8) (q : Nat), q ≤ e → e < dst.length →
    (ds.length ≤ 2 * (e - q) → keyLoop e ds true dst q q = some (over dst q (pack ds), q + (pack ds).length, [])) ∧
    (ds.length > 2 * (e - q) → ∃ d n r, keyLoop e ds true dst q q = some (d, n, r) ∧ r ≠ [] ∧ d.length = dst.length ∧ n ≤ e)
  | [], _, dst, q, _, _ => by
    refine ⟨fun _ => ?_, fun h => by simp at h⟩
    rw [keyLoop, pack, over_nil]; rfl
  | [a], hx, dst, q, hq, he => by
    obtain ⟨t1, t2⟩ := toInt_hex (hx a (by simp))
    by_cases h : q < e
    · refine ⟨fun _ => ?_, fun g => by simp at g; omega⟩
      rw [keyLoop, if_pos h, if_pos rfl, poke_eq (by omega), Option.bind_some, keyLoop, t1, (nibbles t2 t2).1]
      rfl
    · refine ⟨fun g => by simp at g; omega, fun _ => ⟨dst, q, [a], ?_, by simp, rfl, hq⟩⟩
      rw [keyLoop, if_neg h]
  | a :: b :: r, hx, dst, q, hq, he => by
    obtain ⟨t1, t2⟩ := toInt_hex (hx a (by simp))
    obtain ⟨u1, u2⟩ := toInt_hex (hx b (by simp))
    by_cases h : q < e
    · have e1 : keyLoop e (a :: b :: r) true dst q q = keyLoop e r true (over dst q [UInt8.ofNat (16 * hexVal a + hexVal b)]) (q + 1) (q + 1) := by
        rw [keyLoop, if_pos h, if_pos rfl, poke, if_pos (by omega), Option.bind_some, keyLoop, if_pos h, if_neg (by simp),
          List.getElem?_set_self (by omega), Option.bind_some, poke, if_pos (by rw [List.length_set]; omega), Option.bind_some, List.set_set, t1, u1,
          (nibbles t2 u2).2, set_over (by omega)]
      have hl : (over dst q [UInt8.ofNat (16 * hexVal a + hexVal b)]).length = dst.length := over_length (by simp; omega)
      obtain ⟨i1, i2⟩ := keyLoop_pack e r (fun c hc => hx c (by simp [hc])) (over dst q [UInt8.ofNat (16 * hexVal a + hexVal b)]) (q + 1) (by omega) (by omega)
      rw [e1]
      constructor
      · intro g
        rw [i1 (by simp only [List.length_cons] at g; omega)]
        have := over_over (buf := dst) (i := q) (a := [UInt8.ofNat (16 * hexVal a + hexVal b)]) (b := pack r) (by simp; omega)
        simp only [List.length_singleton, List.singleton_append] at this
        rw [this, pack, List.length_cons]
        simp only [Option.some.injEq, Prod.mk.injEq, true_and, and_true]; omega
      · intro g
        obtain ⟨d, n, r', h1, h2, h3, h4⟩ := i2 (by simp only [List.length_cons] at g; omega)
        exact ⟨d, n, r', h1, h2, by rw [h3, hl], h4⟩
    · refine ⟨fun g => by simp at g; omega, fun _ => ⟨dst, q, a :: b :: r, ?_, by simp, rfl, hq⟩⟩
      rw [keyLoop, if_neg h]

/-- The condition for a key in hexadecimal. -/
theorem hexText_iff (s : List UInt8) : (s.head? = some 0x30 ∧ ((s.drop 1).head? = some 0x78 ∨ (s.drop 1).head? = some 0x58) ∧
    ((s.drop 2).takeWhile isHex).length = (s.drop 2).length) ↔ HexText s := by
  constructor
  · rintro ⟨h1, h2, h3⟩
    cases s with
    | nil => simp at h1
    | cons a s =>
      cases s with
      | nil => simp at h2
      | cons x ds =>
        simp only [List.head?_cons, Option.some.injEq] at h1
        simp only [List.drop_succ_cons, List.drop_zero, List.head?_cons, Option.some.injEq] at h2 h3
        refine ⟨x, ds, by rw [h1], h2, fun c hc => (isHex_iff c).1 ?_⟩
        have := (List.takeWhile_sublist isHex (l := ds)).eq_of_length h3
        rw [← this] at hc
        have h5 := List.all_takeWhile (p := isHex) (l := ds)
        rw [List.all_eq_true] at h5
        exact h5 c hc
  · rintro ⟨x, ds, rfl, hx, h⟩
    refine ⟨rfl, by simpa using hx, ?_⟩
    have := List.takeWhile_append_of_pos (l₂ := []) (fun c hc => (isHex_iff c).2 (h c hc))
    simp only [List.append_nil, List.takeWhile_nil] at this
    simp only [List.drop_succ_cons, List.drop_zero, this]

theorem keyText_exists (s : List UInt8) : ∃ k, KeyText s k := by
  by_cases h : HexText s
  · obtain ⟨x, ds, rfl, hx, h⟩ := h
    exact ⟨_, KeyText.hex x ds hx h⟩
  · exact ⟨s, KeyText.text s h⟩

theorem keyText_unique {s k l : List UInt8} (h1 : KeyText s k) (h2 : KeyText s l) : k = l := by
  cases h1 with
  | hex x ds hx h =>
    cases h2 with
    | hex => rfl
    | text _ g => exact absurd ⟨x, ds, rfl, hx, h⟩ g
  | text _ g =>
    cases h2 with
    | hex x ds hx h => exact absurd ⟨x, ds, rfl, hx, h⟩ g
    | text => rfl

/-- `parse_key`. -/
theorem parseKey_spec {dst src k : List UInt8} (h0 : 0 < dst.length) (hk : KeyText src k) :
    (k.length < dst.length → parseKey dst src = some (over dst 0 (k ++ [0]), (k.length : Int))) ∧
    (k.length ≥ dst.length → ∃ d, parseKey dst src = some (d, -1) ∧ d.length = dst.length) := by
  unfold parseKey
  rw [if_neg (by omega)]
  cases hk with
  | hex x ds hx h =>
    rw [if_pos ((hexText_iff _).2 ⟨x, ds, rfl, hx, h⟩)]
    simp only [List.drop_succ_cons, List.drop_zero]
    obtain ⟨i1, i2⟩ := keyLoop_pack (dst.length - 1) ds h dst 0 (by omega) (by omega)
    rw [pack_length] at *
    constructor
    · intro g
      rw [i1 (by omega), Option.bind_some]
      dsimp only
      rw [poke_eq (by rw [over_length (by rw [pack_length]; omega)]; omega)]
      have := over_over (buf := dst) (i := 0) (a := pack ds) (b := [0]) (by rw [pack_length]; omega)
      rw [pack_length] at this
      rw [this]
      simp
    · intro g
      obtain ⟨d, n, r, e, h2, h3, h4⟩ := i2 (by omega)
      rw [e, Option.bind_some]
      dsimp only
      rw [poke_eq (by omega), if_pos h2]
      exact ⟨_, rfl, by rw [over_length (by simp; omega), h3]⟩
  | text _ g =>
    rw [if_neg (fun c => g ((hexText_iff _).1 c)), strlcpy_eq (by omega) (by omega)]
    simp only [Option.map_some]
    constructor
    · intro hl
      rw [if_neg (by omega), List.take_of_length_le (by omega)]
    · intro hl
      rw [if_pos hl]
      exact ⟨_, rfl, over_length (by simp; omega)⟩

/-! ### Numbers -/

theorem strtol_int {s : List UInt8} {z : Int} (h : IntText s z) : (strtol s).2.1 = [] ∧
    (-9223372036854775808 ≤ z ∧ z ≤ 9223372036854775807 → strtol s = (z, [], false)) ∧
    (¬ (-9223372036854775808 ≤ z ∧ z ≤ 9223372036854775807) → (strtol s).2.2 = true) := by
  have key : ∀ (neg : Bool) (body : List UInt8) (n : Nat), CNum body n → (strtolBody s neg body).2.1 = [] ∧
      (-9223372036854775808 ≤ signed neg n ∧ signed neg n ≤ 9223372036854775807 → strtolBody s neg body = (signed neg n, [], false)) ∧
      (¬ (-9223372036854775808 ≤ signed neg n ∧ signed neg n ≤ 9223372036854775807) → (strtolBody s neg body).2.2 = true) := by
    intro neg body n hn
    rw [strtolBody_eq s neg hn]
    split
    · exact ⟨rfl, fun _ => by omega, fun _ => rfl⟩
    · split
      · exact ⟨rfl, fun _ => by omega, fun _ => rfl⟩
      · exact ⟨rfl, fun _ => rfl, fun _ => by omega⟩
  cases h with
  | pos a sg body n ha hs h =>
    rw [strtol_plain ha hs h]
    exact key false body n h
  | neg a body n ha h =>
    rw [strtol_neg ha]
    exact key true body n h

theorem strtol_intText {s : List UInt8} (hne : s ≠ []) (h : (strtol s).2.1 = []) : ∃ z, IntText s z := by
  have hp : s = s.takeWhile isSpace ++ s.dropWhile isSpace := (List.takeWhile_append_dropWhile).symm
  have ha : ∀ c ∈ s.takeWhile isSpace, blankChar c := fun c hc => by
    have := List.all_takeWhile (p := isSpace) (l := s)
    rw [List.all_eq_true] at this
    exact (isSpace_iff c).1 (this c hc)
  generalize s.takeWhile isSpace = a at hp ha
  unfold strtol at h
  generalize s.dropWhile isSpace = u at hp h
  split at h
  · rcases strtolBody_all s true _ h with g | ⟨n, g⟩
    · exact absurd g hne
    · exact ⟨_, by rw [hp]; exact IntText.neg a _ n ha g⟩
  · rcases strtolBody_all s false _ h with g | ⟨n, g⟩
    · exact absurd g hne
    · exact ⟨_, by rw [hp]; exact IntText.pos a [0x2B] _ n ha (Or.inr rfl) g⟩
  · rcases strtolBody_all s false _ h with g | ⟨n, g⟩
    · exact absurd g hne
    · exact ⟨_, by rw [hp]; exact IntText.pos a [] _ n ha (Or.inl rfl) g⟩

theorem strtoulBody_eq (p : List UInt8) (neg : Bool) {s : List UInt8} {n : Nat} (h : CNum s n) :
    strtoulBody p neg s = if n > 18446744073709551615 then (18446744073709551615, [], true)
      else if neg then ((18446744073709551616 - n) % 18446744073709551616, [], false) else (n, [], false) := by
  obtain ⟨h1, h2, h3, h4⟩ := numBase_num h
  have ht := takeDrop_all (p := fun c => decide (digitOf c < (numBase s).1)) (s := (numBase s).2) (fun c hc => by simpa using h3 c hc)
  have hv := fold_posVal h1 h3
  rw [h4] at hv
  unfold strtoulBody
  simp only [ht.1, ht.2, hv]
  rw [if_neg h2]

theorem strtoulBody_rest (p : List UInt8) (neg : Bool) (s : List UInt8) : (strtoulBody p neg s).2.1 = (strtolBody p neg s).2.1 := by
  unfold strtoulBody strtolBody
  dsimp only
  split
  · rfl
  · have h1 : ∀ (c1 c2 : Prop) [Decidable c1] [Decidable c2] (a1 a2 a3 : Int) (b1 b2 b3 : Bool) (r : List UInt8),
        (if c1 then (a1, r, b1) else if c2 then (a2, r, b2) else (a3, r, b3)).2.1 = r := by
      intros; split
      · rfl
      · split <;> rfl
    have h2 : ∀ (c1 c2 : Prop) [Decidable c1] [Decidable c2] (a1 a2 a3 : Nat) (b1 b2 b3 : Bool) (r : List UInt8),
        (if c1 then (a1, r, b1) else if c2 then (a2, r, b2) else (a3, r, b3)).2.1 = r := by
      intros; split
      · rfl
      · split <;> rfl
    rw [h1, h2]

theorem strtoul_rest (p : List UInt8) : (strtoul p).2.1 = (strtol p).2.1 := by
  have e : strtoul p = match p.dropWhile isSpace with
    | 0x2D :: s => strtoulBody p true s
    | 0x2B :: s => strtoulBody p false s
    | s => strtoulBody p false s := rfl
  unfold strtol
  rw [e]
  generalize p.dropWhile isSpace = u
  by_cases h1 : ∃ s, u = 0x2D :: s
  · obtain ⟨s, rfl⟩ := h1; exact strtoulBody_rest p true s
  · by_cases h2 : ∃ s, u = 0x2B :: s
    · obtain ⟨s, rfl⟩ := h2; exact strtoulBody_rest p false s
    · split
      · rename_i s; exact absurd ⟨s, rfl⟩ h1
      · rename_i s; exact absurd ⟨s, rfl⟩ h2
      · split
        · rename_i s _ _; exact absurd ⟨_, rfl⟩ h1
        · rename_i s _ _; exact absurd ⟨_, rfl⟩ h2
        · exact strtoulBody_rest p false u

theorem strtoul_plain {a sg body : List UInt8} {n : Nat} (ha : ∀ c ∈ a, blankChar c) (hs : sg = [] ∨ sg = [0x2B]) (h : CNum body n) :
    strtoul (a ++ (sg ++ body)) = strtoulBody (a ++ (sg ++ body)) false body := by
  obtain ⟨c, hc, hd⟩ := num_head h
  cases body with
  | nil => simp at hc
  | cons d body =>
    simp only [List.head?_cons, Option.some.injEq] at hc
    subst hc
    obtain ⟨f1, f2, f3⟩ := digit_facts hd
    have hdw : (a ++ (sg ++ d :: body)).dropWhile isSpace = sg ++ d :: body := by
      apply dropWhile_blank ha
      rcases hs with rfl | rfl
      · intro x hx; simp only [List.nil_append, List.head?_cons, Option.some.injEq] at hx; subst hx; exact f1
      · intro x hx; simp only [List.cons_append, List.head?_cons, Option.some.injEq] at hx; subst hx; decide
    unfold strtoul
    rw [hdw]
    rcases hs with rfl | rfl
    · split
      · rename_i g; simp only [List.nil_append, List.cons.injEq] at g; exact absurd g.1 f2
      · rename_i g; simp only [List.nil_append, List.cons.injEq] at g; exact absurd g.1 f3
      · rfl
    · rfl

theorem strtoul_neg {a body : List UInt8} (ha : ∀ c ∈ a, blankChar c) : strtoul (a ++ 0x2D :: body) = strtoulBody (a ++ 0x2D :: body) true body := by
  have hdw : (a ++ 0x2D :: body).dropWhile isSpace = 0x2D :: body := by
    apply dropWhile_blank ha
    intro x hx; simp only [List.head?_cons, Option.some.injEq] at hx; subst hx; decide
  unfold strtoul
  rw [hdw]
  rfl

/-- `strtoul` on a number. -/
theorem strtoul_int {s : List UInt8} {z : Int} (h : IntText s z) :
    (-18446744073709551615 ≤ z ∧ z ≤ 18446744073709551615 → (strtoul s).1 % 4294967296 = (z % 4294967296).toNat ∧ (strtoul s).2.2 = false) ∧
    (¬ (-18446744073709551615 ≤ z ∧ z ≤ 18446744073709551615) → (strtoul s).2.2 = true) := by
  cases h with
  | pos a sg body n ha hs h =>
    rw [strtoul_plain ha hs h, strtoulBody_eq _ _ h]
    by_cases g : n > 18446744073709551615
    · rw [if_pos g]; exact ⟨fun _ => by omega, fun _ => rfl⟩
    · rw [if_neg g]; simp only [Bool.false_eq_true, if_false]; exact ⟨fun _ => ⟨by omega, trivial⟩, fun _ => by omega⟩
  | neg a body n ha h =>
    rw [strtoul_neg ha, strtoulBody_eq _ _ h]
    by_cases g : n > 18446744073709551615
    · rw [if_pos g]; exact ⟨fun _ => by omega, fun _ => rfl⟩
    · rw [if_neg g]; simp only [if_true]; exact ⟨fun _ => ⟨by omega, trivial⟩, fun _ => by omega⟩

/-- A number does not begin with a letter. -/
theorem intText_head {s : List UInt8} {z : Int} (h : IntText s z) : ∃ c, s.head? = some c ∧ (blankChar c ∨ c = 0x2B ∨ c = 0x2D ∨ digit c) := by
  have hb : ∀ (a r : List UInt8) (c : UInt8), (∀ x ∈ a, blankChar x) → r.head? = some c → (c = 0x2B ∨ c = 0x2D ∨ digit c) →
      ∃ d, (a ++ r).head? = some d ∧ (blankChar d ∨ d = 0x2B ∨ d = 0x2D ∨ digit d) := by
    intro a r c ha hr hc
    cases a with
    | nil => exact ⟨c, hr, Or.inr hc⟩
    | cons x a => exact ⟨x, rfl, Or.inl (ha x (by simp))⟩
  cases h with
  | pos a sg body n ha hs h =>
    obtain ⟨c, hc, hd⟩ := num_head h
    rcases hs with rfl | rfl
    · exact hb a _ c ha (by simpa using hc) (Or.inr (Or.inr hd))
    · exact hb a _ 0x2B ha (by simp) (Or.inl rfl)
  | neg a body n ha h => exact hb a _ 0x2D ha (by simp) (Or.inr (Or.inl rfl))

theorem intText_notName {s w : List UInt8} {z : Int} (h : IntText s z) (hw : ∃ c, w.head? = some c ∧ 0x61 ≤ c ∧ c ≤ 0x7A) : ¬ sameName s w := by
  intro g
  obtain ⟨c, hc, hp⟩ := intText_head h
  obtain ⟨d, hd, h1, h2⟩ := hw
  have e : downcase c = downcase d := by
    have : (s.map downcase).head? = (w.map downcase).head? := congrArg List.head? g
    rw [List.head?_map, List.head?_map, hc, hd] at this
    simpa using this
  have e2 : downcase d = d := byte_all (P := fun d => 0x61 ≤ d → d ≤ 0x7A → downcase d = d) (by decide +kernel) d h1 h2
  have e3 : downcase c = c := byte_all (P := fun c => (blankChar c ∨ c = 0x2B ∨ c = 0x2D ∨ digit c) → downcase c = c) (by decide +kernel) c hp
  rw [e3, e2] at e
  subst e
  revert hp
  exact byte_all (P := fun c => 0x61 ≤ c → c ≤ 0x7A → (blankChar c ∨ c = 0x2B ∨ c = 0x2D ∨ digit c) → False) (by decide +kernel) c h1 h2

theorem intText_ne {s : List UInt8} {z : Int} (h : IntText s z) : s ≠ [] := by
  obtain ⟨c, hc, _⟩ := intText_head h
  rintro rfl
  simp at hc

theorem sameName_ne {s w : List UInt8} (h : sameName s w) (hw : w ≠ []) : s ≠ [] := by
  rintro rfl
  have := sameName_length h
  rw [List.length_nil] at this
  exact hw (List.length_eq_zero_iff.1 this.symm)

/-! ### Options -/

/-- The call is defined and accepts exactly what `P` says. -/
def Gives (r : Option (Option IpmiOpt)) (P : IpmiOpt → Prop) : Prop := ∃ x, r = some x ∧ ∀ o', x = some o' ↔ P o'

theorem Gives.of_none {P : IpmiOpt → Prop} (h : ∀ o', ¬ P o') : Gives (some none) P := ⟨none, rfl, fun o' => ⟨fun e => by simp at e, fun g => absurd g (h o')⟩⟩

theorem Gives.of_some {P : IpmiOpt → Prop} {o : IpmiOpt} (h : P o) (hu : ∀ o', P o' → o' = o) : Gives (some (some o)) P :=
  ⟨some o, rfl, fun o' => ⟨fun e => by rw [Option.some.injEq] at e; rw [← e]; exact h, fun g => by rw [hu o' g]⟩⟩

theorem ipmiUser_spec (lib : IpmiLib) (o : IpmiOpt) {s : List UInt8} (h0 : (0 : UInt8) ∉ s) : Gives (ipmiUser lib o s) (SetUser lib o s) := by
  unfold ipmiUser
  by_cases h : s = []
  · rw [if_pos h]; subst h
    exact Gives.of_some (SetUser.mk [] (by simp) (Or.inl rfl)) (by rintro o' ⟨⟩; rfl)
  · rw [if_neg h, strlcpy_eq (by omega) (by simp; omega), Option.bind_some]
    dsimp only
    by_cases hl : s.length ≥ lib.maxUser + 1
    · rw [if_pos hl]
      exact Gives.of_none (by intro o' g; cases g with | mk h1 h2 => omega)
    · rw [if_neg hl, List.take_of_length_le (by omega), cstr_over h0]
      simp only [Option.map_some]
      by_cases hu : lib.userOk s = false
      · rw [if_pos hu]
        exact Gives.of_none (by intro o' g; cases g with | mk h1 h2 => rcases h2 with h2 | h2; exact h h2; rw [hu] at h2; simp at h2)
      · rw [if_neg hu]
        exact Gives.of_some (SetUser.mk s (by omega) (Or.inr (by simpa using hu))) (by rintro o' ⟨⟩; rfl)

theorem cstr_over_any (dst k : List UInt8) : cstr (over dst 0 (k ++ [0])) = some (k.takeWhile (· ≠ 0)) := by
  unfold cstr over
  rw [if_pos (by simp)]
  simp only [List.take_zero, List.nil_append, List.append_assoc, List.singleton_append]
  congr 1
  induction k with
  | nil => simp
  | cons c k ih =>
    by_cases h : c = 0
    · subst h; simp
    · rw [List.cons_append, List.takeWhile_cons, List.takeWhile_cons, if_pos (by simpa using h), if_pos (by simpa using h)]
      simp only [List.length_append, List.length_cons, List.length_nil, Nat.zero_add] at ih ⊢
      congr 1
      have : ∀ x y : List UInt8, (k ++ 0 :: x).takeWhile (· ≠ 0) = (k ++ 0 :: y).takeWhile (· ≠ 0) := by
        intro x y
        clear ih
        induction k with
        | nil => simp
        | cons d k ih2 => by_cases hd : d = 0 <;> simp [hd] <;> simpa using ih2
      rw [this _ (dst.drop (0 + (k.length + 1)))]; simpa using ih

theorem ipmiPassword_spec (lib : IpmiLib) (o : IpmiOpt) (s : List UInt8) : Gives (ipmiPassword lib o s) (SetPassword lib o s) := by
  unfold ipmiPassword
  by_cases h : s = []
  · rw [if_pos h]; subst h
    exact Gives.of_some SetPassword.none (by rintro o' (_ | ⟨_, _, hne⟩); rfl; exact absurd rfl hne)
  · rw [if_neg h]
    obtain ⟨k, hk⟩ := keyText_exists s
    obtain ⟨i1, i2⟩ := parseKey_spec (dst := List.replicate (lib.maxPassword + 1) 0) (by simp) hk
    rw [List.length_replicate] at i1 i2
    by_cases hl : k.length < lib.maxPassword + 1
    · rw [i1 hl, Option.bind_some]
      dsimp only
      rw [if_neg (by omega), cstr_over_any]
      simp only [Option.map_some]
      by_cases hu : lib.passwordOk (k.takeWhile (· ≠ 0)) = false
      · rw [if_pos hu]
        refine Gives.of_none ?_
        rintro o' (_ | ⟨_, k', hne, hk', h1, h2⟩)
        · exact h rfl
        · rw [keyText_unique hk' hk, hu] at h2; simp at h2
      · rw [if_neg hu]
        refine Gives.of_some (SetPassword.key s k h hk (by omega) (by simpa using hu)) ?_
        rintro o' (_ | ⟨_, k', hne, hk', h1, h2⟩)
        · exact absurd rfl h
        · rw [keyText_unique hk' hk]
    · obtain ⟨d, e, _⟩ := i2 (by omega)
      rw [e, Option.bind_some]
      dsimp only
      rw [if_pos (by omega)]
      refine Gives.of_none ?_
      rintro o' (_ | ⟨_, k', hne, hk', h1, h2⟩)
      · exact h rfl
      · rw [keyText_unique hk' hk] at h1; omega

theorem ipmiKg_spec (lib : IpmiLib) (o : IpmiOpt) (s : List UInt8) : Gives (ipmiKg lib o s) (SetKg lib o s) := by
  unfold ipmiKg
  by_cases h : s = []
  · rw [if_pos h]; subst h
    exact Gives.of_some SetKg.none (by rintro o' (_ | ⟨_, _, hne⟩); rfl; exact absurd rfl hne)
  · rw [if_neg h]
    obtain ⟨k, hk⟩ := keyText_exists s
    obtain ⟨i1, i2⟩ := parseKey_spec (dst := List.replicate (lib.maxKg + 1) 0) (by simp) hk
    rw [List.length_replicate] at i1 i2
    by_cases hl : k.length < lib.maxKg + 1
    · rw [i1 hl, Option.map_some]
      dsimp only
      have e : (over (List.replicate (lib.maxKg + 1) 0) 0 (k ++ [0])).take (k.length : Int).toNat = k := by
        unfold over; simp
      rw [if_neg (by omega), e]
      by_cases hu : lib.kgOk k = false
      · rw [if_pos hu]
        refine Gives.of_none ?_
        rintro o' (_ | ⟨_, k', hne, hk', h1, h2⟩)
        · exact h rfl
        · rw [keyText_unique hk' hk, hu] at h2; simp at h2
      · rw [if_neg hu]
        refine Gives.of_some (SetKg.key s k h hk (by omega) (by simpa using hu)) ?_
        rintro o' (_ | ⟨_, k', hne, hk', h1, h2⟩)
        · exact absurd rfl h
        · rw [keyText_unique hk' hk]
    · obtain ⟨d, e, _⟩ := i2 (by omega)
      rw [e, Option.map_some]
      dsimp only
      rw [if_pos (by omega)]
      refine Gives.of_none ?_
      rintro o' (_ | ⟨_, k', hne, hk', h1, h2⟩)
      · exact h rfl
      · rw [keyText_unique hk' hk] at h1; omega

theorem strtol_num_unique {s : List UInt8} {z z' : Int} (h : IntText s z) (h' : IntText s z') (r : -9223372036854775808 ≤ z ∧ z ≤ 9223372036854775807)
    (r' : -9223372036854775808 ≤ z' ∧ z' ≤ 9223372036854775807) : z = z' := by
  have a := (strtol_int h).2.1 r
  have b := (strtol_int h').2.1 r'
  rw [a] at b
  simpa using b

theorem longInt_eq (z : Int) : longInt z = wrapInt z := rfl

/-- A value given as a number. -/
theorem num_spec {s : List UInt8} (hne : s ≠ []) (ok : Int → Bool) :
    ((∃ z, IntText s z ∧ (-9223372036854775808 ≤ z ∧ z ≤ 9223372036854775807) ∧ ok (wrapInt z) = true) ↔
      ¬ ((strtol s).2.1 ≠ [] ∨ (strtol s).2.2 = true) ∧ ok (longInt (strtol s).1) = true) := by
  constructor
  · rintro ⟨z, h, r, hv⟩
    rw [(strtol_int h).2.1 r]
    exact ⟨by simp, hv⟩
  · rintro ⟨h, hv⟩
    simp only [not_or, Decidable.not_not, Bool.not_eq_true] at h
    obtain ⟨z, hz⟩ := strtol_intText hne h.1
    by_cases r : -9223372036854775808 ≤ z ∧ z ≤ 9223372036854775807
    · refine ⟨z, hz, r, ?_⟩
      rw [(strtol_int hz).2.1 r] at hv
      exact hv
    · have := (strtol_int hz).2.2 r
      rw [this] at h; simp at h

theorem ipmiCipher_spec (lib : IpmiLib) (o : IpmiOpt) (s : List UInt8) : Gives (some (ipmiCipher lib o s)) (fun o' => ∃ z, CipherText lib s z ∧ o' = { o with cipher := z }) := by
  unfold ipmiCipher
  by_cases h : s = []
  · rw [if_pos h]; subst h
    refine Gives.of_some ⟨-1, CipherText.none, rfl⟩ ?_
    rintro o' ⟨z, hz, rfl⟩
    cases hz with
    | none => rfl
    | num g _ _ _ => exact absurd rfl (intText_ne g)
  · rw [if_neg h]
    dsimp only
    have ns := num_spec h lib.cipherOk
    by_cases c1 : (strtol s).2.1 ≠ [] ∨ (strtol s).2.2 = true
    · rw [if_pos c1]
      refine Gives.of_none ?_
      rintro o' ⟨z, hz, rfl⟩
      cases hz with
      | none => exact h rfl
      | num g r1 r2 hv => exact (ns.1 ⟨_, g, ⟨r1, r2⟩, hv⟩).1 c1
    · rw [if_neg c1]
      by_cases c2 : lib.cipherOk (longInt (strtol s).1) = false
      · rw [if_pos c2]
        refine Gives.of_none ?_
        rintro o' ⟨z, hz, rfl⟩
        cases hz with
        | none => exact h rfl
        | num g r1 r2 hv => have := (ns.1 ⟨_, g, ⟨r1, r2⟩, hv⟩).2; rw [c2] at this; simp at this
      · rw [if_neg c2]
        obtain ⟨z, hz, r, hv⟩ := ns.2 ⟨c1, by simpa using c2⟩
        have e := (strtol_int hz).2.1 r
        rw [e]
        refine Gives.of_some ⟨_, CipherText.num hz r.1 r.2 hv, rfl⟩ ?_
        rintro o' ⟨z', hz', rfl⟩
        cases hz' with
        | none => exact absurd rfl h
        | num g r1 r2 _ => rw [strtol_num_unique g hz ⟨r1, r2⟩ r]; rfl

theorem bs_low : ∀ w ∈ flagNames ++ privNames ++ [bs "default", bs "none"], (0 : UInt8) ∉ w ∧ ∃ c, w.head? = some c ∧ 0x61 ≤ c ∧ c ≤ 0x7A := by
  intro w hw
  have h1 : ∀ w ∈ flagNames ++ privNames ++ [bs "default", bs "none"], (0 : UInt8) ∉ w := by decide +kernel
  have h2 : ∀ w ∈ flagNames ++ privNames ++ [bs "default", bs "none"], 0x61 ≤ w.headD 0 ∧ w.headD 0 ≤ 0x7A := by decide +kernel
  refine ⟨h1 w hw, w.headD 0, ?_, h2 w hw⟩
  cases w with
  | nil => have := (h2 [] hw).1; revert this; decide
  | cons c w => rfl

theorem ipmiPriv_spec (lib : IpmiLib) (o : IpmiOpt) {s : List UInt8} (h0 : (0 : UInt8) ∉ s) :
    Gives (some (ipmiPriv lib o s)) (fun o' => ∃ z, PrivText lib s z ∧ o' = { o with priv := z }) := by
  unfold ipmiPriv
  simp only [(strcasecmp_spec s (bs "user") h0 (by decide)).2.1, (strcasecmp_spec s (bs "op") h0 (by decide)).2.1,
    (strcasecmp_spec s (bs "operator") h0 (by decide)).2.1, (strcasecmp_spec s (bs "admin") h0 (by decide)).2.1,
    (strcasecmp_spec s (bs "administrator") h0 (by decide)).2.1]
  have hn : ∀ {z : Int}, IntText s z → ∀ w ∈ privNames, ¬ sameName s w := fun h w hw => intText_notName h (bs_low w (by simp [hw])).2
  by_cases h : s = []
  · rw [if_pos h]; subst h
    refine Gives.of_some ⟨-1, PrivText.none, rfl⟩ ?_
    rintro o' ⟨z, hz, rfl⟩
    cases hz with
    | none => rfl
    | user g => exact absurd g (by decide)
    | op g => exact absurd g (by decide)
    | admin g => exact absurd g (by decide)
    | num g _ _ _ => exact absurd rfl (intText_ne g)
  rw [if_neg h]
  by_cases h1 : sameName s (bs "user")
  · rw [if_pos h1]
    have ne := fun b hb => sn_ne (b := b) h1 hb
    refine Gives.of_some ⟨_, PrivText.user h1, rfl⟩ ?_
    rintro o' ⟨z, hz, rfl⟩
    cases hz with
    | none => exact absurd rfl h
    | user g => rfl
    | op g => exact absurd g (not_or.2 ⟨ne _ (by decide), ne _ (by decide)⟩)
    | admin g => exact absurd g (not_or.2 ⟨ne _ (by decide), ne _ (by decide)⟩)
    | num g _ _ _ => exact absurd h1 (hn g _ (by decide))
  rw [if_neg h1]
  by_cases h2 : sameName s (bs "op") ∨ sameName s (bs "operator")
  · rw [if_pos h2]
    have ne : ∀ b, ¬ sameName (bs "op") b → ¬ sameName (bs "operator") b → ¬ sameName s b := fun b k1 k2 =>
      h2.elim (fun g => sn_ne g k1) (fun g => sn_ne g k2)
    refine Gives.of_some ⟨_, PrivText.op h2, rfl⟩ ?_
    rintro o' ⟨z, hz, rfl⟩
    cases hz with
    | none => exact absurd rfl h
    | user g => exact absurd g h1
    | op g => rfl
    | admin g => exact absurd g (not_or.2 ⟨ne _ (by decide) (by decide), ne _ (by decide) (by decide)⟩)
    | num g _ _ _ => exact absurd h2 (not_or.2 ⟨hn g _ (by decide), hn g _ (by decide)⟩)
  rw [if_neg h2]
  by_cases h3 : sameName s (bs "admin") ∨ sameName s (bs "administrator")
  · rw [if_pos h3]
    refine Gives.of_some ⟨_, PrivText.admin h3, rfl⟩ ?_
    rintro o' ⟨z, hz, rfl⟩
    cases hz with
    | none => exact absurd rfl h
    | user g => exact absurd g h1
    | op g => exact absurd g h2
    | admin g => rfl
    | num g _ _ _ => exact absurd h3 (not_or.2 ⟨hn g _ (by decide), hn g _ (by decide)⟩)
  rw [if_neg h3]
  have ns := num_spec h lib.privOk
  by_cases c1 : (strtol s).2.1 ≠ [] ∨ (strtol s).2.2 = true
  · rw [if_pos c1]
    refine Gives.of_none ?_
    rintro o' ⟨z, hz, rfl⟩
    cases hz with
    | none => exact h rfl
    | user g => exact h1 g
    | op g => exact h2 g
    | admin g => exact h3 g
    | num g r1 r2 hv => exact (ns.1 ⟨_, g, ⟨r1, r2⟩, hv⟩).1 c1
  · rw [if_neg c1]
    by_cases c2 : lib.privOk (longInt (strtol s).1) = false
    · rw [if_pos c2]
      refine Gives.of_none ?_
      rintro o' ⟨z, hz, rfl⟩
      cases hz with
      | none => exact h rfl
      | user g => exact h1 g
      | op g => exact h2 g
      | admin g => exact h3 g
      | num g r1 r2 hv => have := (ns.1 ⟨_, g, ⟨r1, r2⟩, hv⟩).2; rw [c2] at this; simp at this
    · rw [if_neg c2]
      obtain ⟨z, hz, r, hv⟩ := ns.2 ⟨c1, by simpa using c2⟩
      have e := (strtol_int hz).2.1 r
      rw [e]
      refine Gives.of_some ⟨_, PrivText.num hz r.1 r.2 hv, rfl⟩ ?_
      rintro o' ⟨z', hz', rfl⟩
      cases hz' with
      | none => exact absurd rfl h
      | user g => exact absurd g h1
      | op g => exact absurd g h2
      | admin g => exact absurd g h3
      | num g r1 r2 _ => rw [strtol_num_unique g hz ⟨r1, r2⟩ r]; rfl

theorem flagIndex_spec {s : List UInt8} (h0 : (0 : UInt8) ∉ s) : ∀ (ws : List (List UInt8)) (i : Nat), (∀ w ∈ ws, (0 : UInt8) ∉ w) →
    (∀ j, flagIndex s ws i = some j → ∃ k w, j = i + k ∧ ws[k]? = some w ∧ sameName s w) ∧ (flagIndex s ws i = none → ∀ w ∈ ws, ¬ sameName s w) := by
  intro ws
  induction ws with
  | nil => intro i _; exact ⟨fun j h => by simp [flagIndex] at h, fun _ w hw => by simp at hw⟩
  | cons w ws ih =>
    intro i hz
    have hs := (strcasecmp_spec s w h0 (hz w (by simp))).2.1
    obtain ⟨i1, i2⟩ := ih (i + 1) (fun v hv => hz v (by simp [hv]))
    rw [flagIndex]
    by_cases h : strcasecmp s w = 0
    · rw [if_pos h]
      refine ⟨fun j hj => ⟨0, w, by simpa using hj.symm, rfl, hs.1 h⟩, fun g => by simp at g⟩
    · rw [if_neg h]
      constructor
      · intro j hj
        obtain ⟨k, v, e, hk, hv⟩ := i1 j hj
        exact ⟨k + 1, v, by omega, by simpa using hk, hv⟩
      · intro g v hv
        rcases List.mem_cons.1 hv with rfl | hv
        · exact fun e => h (hs.2 e)
        · exact i2 g v hv

theorem flagNames_inj : ∀ i j : Fin 13, sameName (flagNames.getD i.1 []) (flagNames.getD j.1 []) → i = j := by decide +kernel

theorem flagNames_unique {s v w : List UInt8} {i j : Nat} (hi : flagNames[i]? = some v) (hj : flagNames[j]? = some w) (h1 : sameName s v) (h2 : sameName s w) : i = j := by
  have li : i < 13 := (List.getElem?_eq_some_iff.1 hi).1
  have lj : j < 13 := (List.getElem?_eq_some_iff.1 hj).1
  have := flagNames_inj ⟨i, li⟩ ⟨j, lj⟩ (by
    simp only [List.getD_eq_getElem?_getD, hi, hj, Option.getD_some]
    exact h1.symm.trans h2)
  exact congrArg Fin.val this

theorem flag_spec (lib : IpmiLib) {s : List UInt8} (h0 : (0 : UInt8) ∉ s) (f : UInt32) : ipmiFlag lib s = some f ↔ FlagText lib s f := by
  have hd := (strcasecmp_spec s (bs "default") h0 (by decide)).2.1
  have hno := (strcasecmp_spec s (bs "none") h0 (by decide)).2.1
  have hz : ∀ w ∈ flagNames, (0 : UInt8) ∉ w := fun w hw => (bs_low w (by simp [hw])).1
  obtain ⟨f1, f2⟩ := flagIndex_spec h0 flagNames 0 hz
  have hnum : ∀ {z : Int}, IntText s z → ∀ w ∈ flagNames ++ privNames ++ [bs "default", bs "none"], ¬ sameName s w := fun h w hw =>
    intText_notName h (bs_low w hw).2
  have hdn : ∀ w ∈ flagNames, ¬ sameName (bs "default") w ∧ ¬ sameName (bs "none") w ∧ w ≠ [] := by decide +kernel
  unfold ipmiFlag
  rw [show flagTable = flagNames from rfl]
  by_cases h : s = [] ∨ strcasecmp s (bs "default") = 0
  · rw [if_pos h, Option.some.injEq]
    rw [hd] at h
    constructor
    · rintro rfl
      rcases h with rfl | h
      · exact FlagText.none
      · exact FlagText.default h
    · intro g
      cases g with
      | none => rfl
      | default _ => rfl
      | name i hi g =>
        have hm := List.mem_of_getElem? hi
        rcases h with rfl | h
        · exact absurd rfl (sameName_ne g (hdn _ hm).2.2)
        · exact absurd g (sn_ne h (hdn _ hm).1)
      | off g =>
        rcases h with rfl | h
        · exact absurd g (by decide)
        · exact absurd g (sn_ne h (by decide))
      | num g _ _ _ =>
        rcases h with rfl | h
        · exact absurd rfl (intText_ne g)
        · exact absurd h (hnum g _ (by decide))
  · rw [if_neg h]
    rw [hd] at h
    simp only [not_or] at h
    cases hi : flagIndex s flagNames 0 with
    | some i =>
      obtain ⟨k, w, e, hk, hw⟩ := f1 i hi
      rw [Nat.zero_add] at e
      subst e
      dsimp only
      rw [Option.some.injEq]
      constructor
      · rintro rfl; exact FlagText.name i hk hw
      · intro g
        cases g with
        | none => exact absurd rfl h.1
        | default g => exact absurd g h.2
        | name j hj g => rw [flagNames_unique hk hj hw g]
        | off g => exact absurd hw (sn_ne g (hdn _ (List.mem_of_getElem? hk)).2.1)
        | num g _ _ _ => exact absurd hw (hnum g _ (by simp [List.mem_of_getElem? hk]))
    | none =>
      have hf := f2 hi
      dsimp only
      by_cases hn : strcasecmp s (bs "none") = 0
      · rw [if_pos hn, Option.some.injEq]
        rw [hno] at hn
        constructor
        · rintro rfl; exact FlagText.off hn
        · intro g
          cases g with
          | none => exact absurd rfl h.1
          | default g => exact absurd g h.2
          | name j hj g => exact absurd g (hf _ (List.mem_of_getElem? hj))
          | off g => rfl
          | num g _ _ _ => exact absurd hn (hnum g _ (by decide))
      · rw [if_neg hn]
        rw [hno] at hn
        by_cases c1 : (strtoul s).2.1 ≠ [] ∨ (strtoul s).2.2 = true
        · rw [if_pos c1]
          constructor
          · intro g; simp at g
          · intro g
            cases g with
            | none => exact absurd rfl h.1
            | default g => exact absurd g h.2
            | name j hj g => exact absurd g (hf _ (List.mem_of_getElem? hj))
            | off g => exact absurd g hn
            | num g r1 r2 _ =>
              rw [strtoul_rest, (strtol_int g).1, ((strtoul_int g).1 ⟨r1, r2⟩).2] at c1
              simp at c1
        · rw [if_neg c1]
          simp only [not_or, Decidable.not_not, Bool.not_eq_true] at c1
          rw [strtoul_rest] at c1
          obtain ⟨z, hz⟩ := strtol_intText h.1 c1.1
          have r : -18446744073709551615 ≤ z ∧ z ≤ 18446744073709551615 := by
            by_cases r : -18446744073709551615 ≤ z ∧ z ≤ 18446744073709551615
            · exact r
            · have := (strtoul_int hz).2 r
              rw [this] at c1; simp at c1
          rw [((strtoul_int hz).1 r).1]
          have uniq : ∀ z', IntText s z' → -18446744073709551615 ≤ z' ∧ z' ≤ 18446744073709551615 → (z' % 4294967296).toNat = (z % 4294967296).toNat := by
            intro z' h' r'
            rw [← ((strtoul_int hz).1 r).1, ← ((strtoul_int h').1 r').1]
          by_cases c2 : lib.workaroundOk (UInt32.ofNat (z % 4294967296).toNat) = false
          · rw [if_pos c2]
            constructor
            · intro g; simp at g
            · intro g
              cases g with
              | none => exact absurd rfl h.1
              | default g => exact absurd g h.2
              | name j hj g => exact absurd g (hf _ (List.mem_of_getElem? hj))
              | off g => exact absurd g hn
              | num g r1 r2 hv => rw [uniq _ g ⟨r1, r2⟩, c2] at hv; simp at hv
          · rw [if_neg c2, Option.some.injEq]
            constructor
            · rintro rfl; exact FlagText.num hz r.1 r.2 (by simpa using c2)
            · intro g
              cases g with
              | none => exact absurd rfl h.1
              | default g => exact absurd g h.2
              | name j hj g => exact absurd g (hf _ (List.mem_of_getElem? hj))
              | off g => exact absurd g hn
              | num g r1 r2 hv => rw [uniq _ g ⟨r1, r2⟩]

theorem ipmiWorkaround_spec (lib : IpmiLib) (o : IpmiOpt) {s : List UInt8} (h0 : (0 : UInt8) ∉ s) : Gives (some (ipmiWorkaround lib o s)) (SetFlag lib o s) := by
  refine ⟨_, rfl, fun o' => ?_⟩
  unfold ipmiWorkaround
  rw [Option.map_eq_some_iff]
  have e : ∀ f : UInt32, (if f = 0 ∨ f = lib.wDefault ∨ o.workaround = lib.wDefault then { o with workaround := f } else { o with workaround := o.workaround ||| f } : IpmiOpt)
      = { o with workaround := addFlag lib o.workaround f } := by
    intro f
    unfold addFlag
    split <;> rfl
  constructor
  · rintro ⟨f, hf, rfl⟩
    rw [e]
    exact SetFlag.mk s f ((flag_spec lib h0 f).1 hf)
  · intro g
    cases g with
    | mk f h => exact ⟨f, (flag_spec lib h0 f).2 h, e f⟩

theorem toLower_two (c : UInt8) : (toLower c = 0x75 ↔ c = 0x55 ∨ c = 0x75) ∧ (toLower c = 0x70 ↔ c = 0x50 ∨ c = 0x70) ∧ (toLower c = 0x6B ↔ c = 0x4B ∨ c = 0x6B) ∧
    (toLower c = 0x6C ↔ c = 0x4C ∨ c = 0x6C) ∧ (toLower c = 0x63 ↔ c = 0x43 ∨ c = 0x63) ∧ (toLower c = 0x77 ↔ c = 0x57 ∨ c = 0x77) :=
  byte_all (P := fun c => (toLower c = 0x75 ↔ c = 0x55 ∨ c = 0x75) ∧ (toLower c = 0x70 ↔ c = 0x50 ∨ c = 0x70) ∧ (toLower c = 0x6B ↔ c = 0x4B ∨ c = 0x6B) ∧
    (toLower c = 0x6C ↔ c = 0x4C ∨ c = 0x6C) ∧ (toLower c = 0x63 ↔ c = 0x43 ∨ c = 0x63) ∧ (toLower c = 0x77 ↔ c = 0x57 ∨ c = 0x77)) (by decide +kernel) c

theorem Gives.congr {r : Option (Option IpmiOpt)} {P Q : IpmiOpt → Prop} (h : Gives r P) (e : ∀ o', P o' ↔ Q o') : Gives r Q := by
  obtain ⟨x, hx, hp⟩ := h
  exact ⟨x, hx, fun o' => (hp o').trans (e o')⟩

theorem ipmiOpt_spec (lib : IpmiLib) (o : IpmiOpt) {w : List UInt8} (h0 : (0 : UInt8) ∉ w) : Gives (ipmiOpt lib o w) (IpmiWord lib o w) := by
  unfold ipmiOpt
  split
  · rename_i c p
    have hp : (0 : UInt8) ∉ p := fun g => h0 (by simp [g])
    obtain ⟨t1, t2, t3, t4, t5, t6⟩ := toLower_two c
    by_cases h1 : toLower c = 0x75
    · rw [if_pos h1]
      refine (ipmiUser_spec lib o hp).congr fun o' => ⟨IpmiWord.user c p o' (t1.1 h1), fun g => ?_⟩
      cases g with
      | user _ _ _ _ h => exact h
      | password _ _ _ hc => exact absurd (t2.2 hc) (by rw [h1]; decide)
      | kg _ _ _ hc => exact absurd (t3.2 hc) (by rw [h1]; decide)
      | priv _ _ _ hc => exact absurd (t4.2 hc) (by rw [h1]; decide)
      | cipher _ _ _ hc => exact absurd (t5.2 hc) (by rw [h1]; decide)
      | flag _ _ _ hc => exact absurd (t6.2 hc) (by rw [h1]; decide)
    rw [if_neg h1]
    by_cases h2 : toLower c = 0x70
    · rw [if_pos h2]
      refine (ipmiPassword_spec lib o p).congr fun o' => ⟨IpmiWord.password c p o' (t2.1 h2), fun g => ?_⟩
      cases g with
      | user _ _ _ hc => exact absurd (t1.2 hc) h1
      | password _ _ _ hc h => exact h
      | kg _ _ _ hc => exact absurd (t3.2 hc) (by rw [h2]; decide)
      | priv _ _ _ hc => exact absurd (t4.2 hc) (by rw [h2]; decide)
      | cipher _ _ _ hc => exact absurd (t5.2 hc) (by rw [h2]; decide)
      | flag _ _ _ hc => exact absurd (t6.2 hc) (by rw [h2]; decide)
    rw [if_neg h2]
    by_cases h3 : toLower c = 0x6B
    · rw [if_pos h3]
      refine (ipmiKg_spec lib o p).congr fun o' => ⟨IpmiWord.kg c p o' (t3.1 h3), fun g => ?_⟩
      cases g with
      | user _ _ _ hc => exact absurd (t1.2 hc) h1
      | password _ _ _ hc h => exact absurd (t2.2 hc) h2
      | kg _ _ _ hc h => exact h
      | priv _ _ _ hc => exact absurd (t4.2 hc) (by rw [h3]; decide)
      | cipher _ _ _ hc => exact absurd (t5.2 hc) (by rw [h3]; decide)
      | flag _ _ _ hc => exact absurd (t6.2 hc) (by rw [h3]; decide)
    rw [if_neg h3]
    by_cases h4 : toLower c = 0x6C
    · rw [if_pos h4]
      refine (ipmiPriv_spec lib o hp).congr fun o' => ⟨?_, fun g => ?_⟩
      · rintro ⟨z, hz, rfl⟩; exact IpmiWord.priv c p z (t4.1 h4) hz
      cases g with
      | user _ _ _ hc => exact absurd (t1.2 hc) h1
      | password _ _ _ hc h => exact absurd (t2.2 hc) h2
      | kg _ _ _ hc h => exact absurd (t3.2 hc) h3
      | priv _ _ z hc h => exact ⟨z, h, rfl⟩
      | cipher _ _ _ hc => exact absurd (t5.2 hc) (by rw [h4]; decide)
      | flag _ _ _ hc => exact absurd (t6.2 hc) (by rw [h4]; decide)
    rw [if_neg h4]
    by_cases h5 : toLower c = 0x63
    · rw [if_pos h5]
      refine (ipmiCipher_spec lib o p).congr fun o' => ⟨?_, fun g => ?_⟩
      · rintro ⟨z, hz, rfl⟩; exact IpmiWord.cipher c p z (t5.1 h5) hz
      cases g with
      | user _ _ _ hc => exact absurd (t1.2 hc) h1
      | password _ _ _ hc h => exact absurd (t2.2 hc) h2
      | kg _ _ _ hc h => exact absurd (t3.2 hc) h3
      | priv _ _ z hc h => exact absurd (t4.2 hc) h4
      | cipher _ _ z hc h => exact ⟨z, h, rfl⟩
      | flag _ _ _ hc => exact absurd (t6.2 hc) (by rw [h5]; decide)
    rw [if_neg h5]
    by_cases h6 : toLower c = 0x77
    · rw [if_pos h6]
      refine (ipmiWorkaround_spec lib o hp).congr fun o' => ⟨IpmiWord.flag c p o' (t6.1 h6), fun g => ?_⟩
      cases g with
      | user _ _ _ hc => exact absurd (t1.2 hc) h1
      | password _ _ _ hc h => exact absurd (t2.2 hc) h2
      | kg _ _ _ hc h => exact absurd (t3.2 hc) h3
      | priv _ _ z hc h => exact absurd (t4.2 hc) h4
      | cipher _ _ z hc h => exact absurd (t5.2 hc) h5
      | flag _ _ _ hc h => exact h
    rw [if_neg h6]
    refine Gives.of_none fun o' g => ?_
    cases g with
    | user _ _ _ hc => exact absurd (t1.2 hc) h1
    | password _ _ _ hc h => exact absurd (t2.2 hc) h2
    | kg _ _ _ hc h => exact absurd (t3.2 hc) h3
    | priv _ _ z hc h => exact absurd (t4.2 hc) h4
    | cipher _ _ z hc h => exact absurd (t5.2 hc) h5
    | flag _ _ _ hc h => exact absurd (t6.2 hc) h6
  · rename_i hno
    refine Gives.of_none fun o' g => ?_
    cases g <;> exact hno _ _ rfl

theorem optLoop_spec {step : IpmiOpt → List UInt8 → Option (Option IpmiOpt)} {P : IpmiOpt → List UInt8 → IpmiOpt → Prop} (ts : List (List UInt8))
    (hstep : ∀ o, ∀ w ∈ ts, Gives (step o w) (P o w)) : ∀ o, Gives (optLoop step o ts) (fun o' => Steps P o ts o') := by
  induction ts with
  | nil =>
    intro o
    exact Gives.of_some (Steps.nil o) (fun o' g => by cases g; rfl)
  | cons w ts ih =>
    intro o
    obtain ⟨x, hx, hp⟩ := hstep o w (by simp)
    rw [optLoop, hx, Option.bind_some]
    cases x with
    | none =>
      refine Gives.of_none fun o' g => ?_
      cases g with
      | cons h hs => have := (hp _).2 h; simp at this
    | some o1 =>
      have h1 : P o w o1 := (hp o1).1 rfl
      refine (ih (fun o v hv => hstep o v (by simp [hv])) o1).congr fun o' => ⟨fun hs => Steps.cons h1 hs, fun g => ?_⟩
      cases g with
      | cons h hs => have := (hp _).2 h; rw [Option.some.injEq] at this; rw [this]; exact hs

theorem andThen_spec {r : Option (Option IpmiOpt)} {f : IpmiOpt → Option (Option IpmiOpt)} {P : IpmiOpt → Prop} {Q : IpmiOpt → IpmiOpt → Prop} (hr : Gives r P)
    (hf : ∀ o, Gives (f o) (Q o)) : Gives (andThen r f) (fun o' => ∃ o, P o ∧ Q o o') := by
  obtain ⟨x, rfl, hp⟩ := hr
  unfold andThen
  rw [Option.bind_some]
  cases x with
  | none => exact Gives.of_none fun o' ⟨o, h, _⟩ => by have := (hp o).2 h; simp at this
  | some o =>
    refine (hf o).congr fun o' => ⟨fun h => ⟨o, (hp o).1 rfl, h⟩, ?_⟩
    rintro ⟨o2, h, hq⟩
    have := (hp o2).2 h
    rw [Option.some.injEq] at this
    rw [this]; exact hq

theorem skipDash_eq (w : List UInt8) : skipDash w = dash w := by
  unfold skipDash dash
  split
  · rename_i h; rw [h]; rfl
  · rfl

theorem dash_zero {w : List UInt8} (h : (0 : UInt8) ∉ w) : (0 : UInt8) ∉ dash w := by
  unfold dash; split
  · simp
  · exact h

theorem ipmiV1_spec (lib : IpmiLib) (o : IpmiOpt) (ts : List (List UInt8)) (h0 : ∀ w ∈ ts, (0 : UInt8) ∉ w) : Gives (ipmiV1 lib o ts) (OldForm lib o ts) := by
  unfold ipmiV1
  have one : ∀ o : IpmiOpt, Gives (some (some o)) (fun o' => o' = o) := fun o => Gives.of_some rfl (fun _ g => g)
  cases ts with
  | nil => exact Gives.of_some OldForm.none (fun o' g => by cases g; rfl)
  | cons u ts =>
    have hu := ipmiUser_spec lib o (dash_zero (h0 u (by simp)))
    rw [← skipDash_eq] at hu
    cases ts with
    | nil =>
      refine (andThen_spec hu one).congr fun o' => ⟨?_, fun g => ?_⟩
      · rintro ⟨o1, h, rfl⟩; rw [skipDash_eq] at h; exact OldForm.user h
      · cases g with
        | user h => exact ⟨o', by rw [skipDash_eq]; exact h, rfl⟩
    | cons p ts =>
      have hpw := fun o => ipmiPassword_spec lib o (skipDash p)
      cases ts with
      | nil =>
        refine (andThen_spec hu (fun o => andThen_spec (hpw o) one)).congr fun o' => ⟨?_, fun g => ?_⟩
        · rintro ⟨o1, h1, o2, h2, rfl⟩; rw [skipDash_eq] at h1 h2; exact OldForm.password h1 h2
        · cases g with
          | password h1 h2 => exact ⟨_, by rw [skipDash_eq]; exact h1, _, by rw [skipDash_eq]; exact h2, rfl⟩
      | cons k ts =>
        have hk := fun o => ipmiKg_spec lib o (skipDash k)
        have hl := optLoop_spec (step := fun o w => some (ipmiWorkaround lib o (skipDash w))) (P := fun o w o' => SetFlag lib o (dash w) o') ts
          (fun o w hw => by
            have := ipmiWorkaround_spec lib o (dash_zero (h0 w (by simp [hw])))
            rw [← skipDash_eq] at this
            rw [← skipDash_eq]
            exact this)
        refine (andThen_spec hu (fun o => andThen_spec (hpw o) (fun o => andThen_spec (hk o) hl))).congr fun o' => ⟨?_, fun g => ?_⟩
        · rintro ⟨o1, h1, o2, h2, o3, h3, h4⟩
          rw [skipDash_eq] at h1 h2 h3
          exact OldForm.full h1 h2 h3 h4
        · cases g with
          | full h1 h2 h3 h4 =>
            exact ⟨_, by rw [skipDash_eq]; exact h1, _, by rw [skipDash_eq]; exact h2, _, by rw [skipDash_eq]; exact h3, h4⟩

end Conman
