import Verif.Lemma.Ipmi

/-
Properties C45 (keys) and C44 (IPMI options).
-/
namespace Conman
open Spec (Toks commaSep KeyText HexText pack IpmiWord Steps OldForm)

/-! ### C45 -/

/-- **C45.** The bytes a key means (`0x` and hexadecimal digits: the bytes; otherwise: the text itself) are stored with a terminator, and their number
returned, if they fit; otherwise the key is refused.  Nothing outside the array of `dst.length` bytes is touched (the result is not `none`). -/
theorem C45_key (dst src : List UInt8) (h0 : 0 < dst.length) : ∃ k, KeyText src k ∧ (∀ k', KeyText src k' → k' = k) ∧
    (k.length < dst.length → parseKey dst src = some (k ++ 0 :: dst.drop (k.length + 1), (k.length : Int))) ∧
    (k.length ≥ dst.length → ∃ d, parseKey dst src = some (d, -1) ∧ d.length = dst.length) := by
  obtain ⟨k, hk⟩ := keyText_exists src
  obtain ⟨h1, h2⟩ := parseKey_spec h0 hk
  refine ⟨k, hk, fun k' h => keyText_unique h hk, fun h => ?_, h2⟩
  rw [h1 h]
  simp [over]

example : KeyText (bs "0x4A4b5") [0x4A, 0x4B, 0x50] ∧ KeyText (bs "0x4Q") (bs "0x4Q") := by
  refine ⟨KeyText.hex 0x78 (bs "4A4b5") (Or.inl rfl) (by decide +kernel), KeyText.text _ ?_⟩
  rintro ⟨x, ds, h, _, hd⟩
  have : ds = bs "4Q" := by
    have := congrArg (List.drop 2) h
    exact this.symm
  rw [this] at hd
  exact absurd (hd 0x51 (by decide)) (by decide)

/-- C45 on cases: six digits fit three bytes and the terminator, eight do not. -/
example : parseKey [9, 9, 9, 9, 9] (bs "0x010203") = some ([1, 2, 3, 0, 9], 3) ∧ parseKey [9, 9, 9, 9] (bs "0x010203") = some ([1, 2, 3, 0], 3) ∧
    (parseKey [9, 9, 9, 9] (bs "0x01020304")).map (·.2) = some (-1) ∧ (parseKey [9, 9, 9, 9] (bs "abcd")).map (·.2) = some (-1) := by decide +kernel

/-- **C45.** The name, the password and the key of an IPMI console: what is stored, or that the value is refused.  The stored values obey the maximum
lengths. -/
theorem C45_ipmi_values (lib : IpmiLib) (o o' : IpmiOpt) (s : List UInt8) (h0 : (0 : UInt8) ∉ s) :
    (ipmiUser lib o s = some (some o') ↔ s.length ≤ lib.maxUser ∧ (s = [] ∨ lib.userOk s = true) ∧ o' = { o with user := s, userSet := true }) ∧
    (s ≠ [] → (ipmiPassword lib o s = some (some o') ↔ ∃ k, KeyText s k ∧ k.length ≤ lib.maxPassword ∧ lib.passwordOk (k.takeWhile (· ≠ 0)) = true ∧
      o' = { o with password := k.takeWhile (· ≠ 0), passwordSet := true })) ∧
    (s ≠ [] → (ipmiKg lib o s = some (some o') ↔ ∃ k, KeyText s k ∧ k.length ≤ lib.maxKg ∧ lib.kgOk k = true ∧ o' = { o with kg := k, kgSet := true })) := by
  refine ⟨?_, fun hne => ?_, fun hne => ?_⟩
  · obtain ⟨x, e, h⟩ := ipmiUser_spec lib o h0
    rw [e, Option.some.injEq, h o']
    constructor
    · intro g; cases g with | mk h1 h2 => exact ⟨h1, h2, rfl⟩
    · rintro ⟨h1, h2, rfl⟩; exact Spec.SetUser.mk s h1 h2
  · obtain ⟨x, e, h⟩ := ipmiPassword_spec lib o s
    rw [e, Option.some.injEq, h o']
    constructor
    · intro g
      cases g with
      | none => exact absurd rfl hne
      | key _ _ _ hk h1 h2 => exact ⟨_, hk, h1, h2, rfl⟩
    · rintro ⟨k, hk, h1, h2, rfl⟩; exact Spec.SetPassword.key s k hne hk h1 h2
  · obtain ⟨x, e, h⟩ := ipmiKg_spec lib o s
    rw [e, Option.some.injEq, h o']
    constructor
    · intro g
      cases g with
      | none => exact absurd rfl hne
      | key _ _ _ hk h1 h2 => exact ⟨_, hk, h1, h2, rfl⟩
    · rintro ⟨k, hk, h1, h2, rfl⟩; exact Spec.SetKg.key s k hne hk h1 h2

/-- A library for the examples: lengths 16, 20 and 20, every value allowed except that the privilege must be 2, 3 or 4 and the cipher 0 to 17. -/
def exLib : IpmiLib where
  maxUser := 16
  maxPassword := 20
  maxKg := 20
  userOk _ := true
  passwordOk _ := true
  kgOk _ := true
  privOk z := z = 2 || z = 3 || z = 4
  cipherOk z := 0 ≤ z && z ≤ 17
  workaroundOk _ := true
  privUser := 2
  privOp := 3
  privAdmin := 4
  wDefault := 0xFFFFFFFF
  wFlag i := 1 <<< UInt32.ofNat i

def exOpt : IpmiOpt := ⟨[], false, [], false, [], false, -1, -1, 0xFFFFFFFF⟩

/-- C45 on a case: a key with a zero byte is kept as it is. -/
example : (ipmiKg exLib exOpt (bs "0x410042")).map (·.map (·.kg)) = some (some [0x41, 0, 0x42]) := by decide +kernel

/-- **C45, finding.** A password written in hexadecimal is cut at its first zero byte, without a message. -/
theorem C45_password_cut : (ipmiPassword exLib exOpt (bs "0x41004243")).map (·.map (·.password)) = some (some [0x41]) := by decide +kernel

/-- **C45, finding.** An odd number of digits is accepted: the last digit is the upper half of the last byte; and `0x` alone is an empty key. -/
theorem C45_odd_digits : (ipmiKg exLib exOpt (bs "0x123")).map (·.map (·.kg)) = some (some [0x12, 0x30]) ∧
    (ipmiKg exLib exOpt (bs "0x")).map (·.map (·.kg)) = some (some []) := by decide +kernel

/-! ### C44: IPMI options -/

/-- **C44.** IPMI options are applied as a whole if each of them is allowed: options of the form letter, colon, value one after the other if the second
byte of the text is a colon (or the text is empty), name, password, key and workarounds by position otherwise.  In every other case they are refused, and
nothing changes. -/
theorem C44_ipmi (lib : IpmiLib) (o : IpmiOpt) (s : List UInt8) (ts : List (List UInt8)) (h0 : (0 : UInt8) ∉ s) (ht : Toks commaSep ts s) :
    (∀ o', parseIpmiOpts lib o s = some (o', 0) ↔ s.length < 1024 ∧ (if s = [] ∨ s[1]? = some 0x3A then Steps (IpmiWord lib) o ts o' else OldForm lib o ts o')) ∧
    ((¬ ∃ o', parseIpmiOpts lib o s = some (o', 0)) → parseIpmiOpts lib o s = some (o, -1)) := by
  unfold parseIpmiOpts
  rw [strtok_eq ht]
  have hz := toks_zero ht h0
  by_cases hl : s.length ≥ maxLine
  · rw [if_pos hl]
    refine ⟨fun o' => ⟨fun g => by simp at g, fun g => ?_⟩, fun _ => rfl⟩
    have : maxLine = 1024 := rfl
    omega
  · rw [if_neg hl]
    have hl' : s.length < 1024 := Nat.lt_of_not_ge hl
    have hc : (s.drop 1).head? = s[1]? := by simp
    have main : ∀ (r : Option (Option IpmiOpt)) (P : IpmiOpt → Prop), Gives r P →
        (∀ o', (r.map fun r => match r with | none => (o, (-1 : Int)) | some o' => (o', 0)) = some (o', 0) ↔ s.length < 1024 ∧ P o') ∧
        ((¬ ∃ o', (r.map fun r => match r with | none => (o, (-1 : Int)) | some o' => (o', 0)) = some (o', 0)) →
          (r.map fun r => match r with | none => (o, (-1 : Int)) | some o' => (o', 0)) = some (o, -1)) := by
      rintro r P ⟨x, rfl, hp⟩
      cases x with
      | none => exact ⟨fun o' => ⟨fun g => by simp at g, fun g => by have := (hp o').2 g.2; simp at this⟩, fun _ => rfl⟩
      | some o1 =>
        refine ⟨fun o' => ?_, fun g => absurd ⟨o1, rfl⟩ g⟩
        rw [← hp o']
        simp [hl']
    by_cases h : s ≠ [] ∧ (s.drop 1).head? ≠ some 0x3A
    · have h' : ¬ (s = [] ∨ s[1]? = some 0x3A) := by rw [hc] at h; exact not_or.2 h
      rw [if_pos h]
      simp only [if_neg h']
      exact main _ _ (ipmiV1_spec lib o ts hz)
    · have h' : s = [] ∨ s[1]? = some 0x3A := by
        rw [hc] at h
        by_cases e : s = []
        · exact Or.inl e
        · exact Or.inr (Decidable.not_not.1 (fun g => h ⟨e, g⟩))
      rw [if_neg h]
      simp only [if_pos h']
      exact main _ _ (optLoop_spec ts (fun o w hw => ipmiOpt_spec lib o (hz w hw)) o)

/-- C44 on cases: both forms; a wrong value in the third place leaves everything as it was. -/
example : parseIpmiOpts exLib exOpt (bs "U:joe,P:0x4142,l:admin,W:sun20,w:solport") =
      some (⟨bs "joe", true, bs "AB", true, [], false, 4, -1, 1032⟩, 0) ∧
    parseIpmiOpts exLib exOpt (bs "joe,-,key,sun20") = some (⟨bs "joe", true, [], true, bs "key", true, -1, -1, 8⟩, 0) ∧
    parseIpmiOpts exLib exOpt (bs "U:joe,P:secret,L:7") = some (exOpt, -1) ∧ parseIpmiOpts exLib exOpt (bs "U:joe,X:1") = some (exOpt, -1) := by decide +kernel

example : Toks commaSep [bs "U:joe", bs "L:op"] (bs "U:joe,L:op") ∧ IpmiWord exLib exOpt (bs "L:op") { exOpt with priv := 3 } := by
  refine ⟨?_, IpmiWord.priv 0x4C (bs "op") 3 (Or.inl rfl) (Spec.PrivText.op (Or.inl (by decide +kernel)))⟩
  obtain ⟨ts, h⟩ := toks_exists commaSep (bs "U:joe,L:op")
  have := strtok_eq h
  rw [show strtokAll commaSep (bs "U:joe,L:op") = [bs "U:joe", bs "L:op"] by decide +kernel] at this
  rw [this]; exact h

/-- **C44, finding.** A privilege level outside `int` is taken modulo 2^32: 4294967298 is accepted as 2. -/
theorem C44_ipmi_wraps : (parseIpmiOpts exLib exOpt (bs "L:4294967298")).map (fun r => (r.1.priv, r.2)) = some (2, 0) := by decide +kernel

end Conman
