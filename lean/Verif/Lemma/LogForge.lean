import Verif.Lemma.ProtoRsp

/-
Greetings with user names that no client of the project would send.
-/
namespace Conman
open Spec

/-- The array holds a greeting whose user name is sent with the high bits set. -/
theorem greeting_high (x junk : List UInt8) (hx : ∀ c ∈ x, 128 ≤ c) (hl : x.length ≤ 1023) (h0 : x ≠ []) :
    recvGreeting (bs "HELLO USER='" ++ x ++ bs "'\n" ++ 0 :: junk) = some { user := some (lexDecode x) } := by
  have xz : ∀ c : UInt8, c < 128 → c ∉ x := by
    intro c hc hm
    have h1 := hx c hm
    have h2 : c.toNat < 128 := hc
    have h3 : (128 : Nat) ≤ c.toNat := h1
    omega
  have eh : bs "HELLO USER='" = bs "HELLO" ++ (bs " USER" ++ [0x3D, 0x27]) := by decide
  have en : bs "'\n" = [0x27, 0x0A] := by decide
  have eu : bs " USER" = [0x20] ++ bs "USER" := by decide
  have z : ∀ r : List UInt8, (0 : UInt8) ∉ r → (0 : UInt8) ∉ x ++ r := by
    intro r hr; rw [List.mem_append, not_or]; exact ⟨xz 0 (by decide), hr⟩
  have ee : bs "HELLO USER='" ++ x ++ bs "'\n" ++ 0 :: junk = [] ++ (bs "HELLO" ++ ((bs " USER" ++ ([0x3D, 0x27] ++ (x ++ [0x27, 0x0A]))) ++ 0 :: junk)) := by
    rw [eh, en]; simp only [List.append_assoc, List.nil_append]
  obtain ⟨n, hn⟩ : ∃ n, (bs "HELLO USER='" ++ x ++ bs "'\n" ++ 0 :: junk).length + 1 = n + 3 :=
    ⟨(bs "HELLO USER='" ++ x ++ bs "'\n" ++ 0 :: junk).length - 2, by rw [eh]; simp only [List.length_append, List.length_cons]; omega⟩
  unfold recvGreeting
  rw [hn]
  have hp : (lexCreate (bs "HELLO USER='" ++ x ++ bs "'\n" ++ 0 :: junk)).pos = [] ++ (bs "HELLO" ++ ((bs " USER" ++ ([0x3D, 0x27] ++ (x ++ [0x27, 0x0A]))) ++ 0 :: junk)) := ee
  generalize lexCreate (bs "HELLO USER='" ++ x ++ bs "'\n" ++ 0 :: junk) = l at hp
  obtain ⟨l0, g0, p0⟩ := next_key (i := 6) (k := bs "HELLO") rfl l [] _ junk (Or.inl rfl) hp (by
    rintro ⟨y, hy, hd⟩
    rw [eu] at hy
    simp only [List.cons_append, List.nil_append, List.head?_cons, Option.some.injEq] at hy
    subst hy
    revert hd; decide) (by
    simp only [List.mem_append, not_or]; exact ⟨by decide, by decide, xz 0 (by decide), by decide⟩)
  obtain ⟨l1, g1, p1⟩ := next_key (i := 17) (k := bs "USER") rfl l0 [0x20] ([0x3D, 0x27] ++ (x ++ [0x27, 0x0A])) junk (Or.inr rfl) (by
    rw [p0, eu]; simp only [List.append_assoc]) (by
    rintro ⟨y, hy, hd⟩
    simp only [List.cons_append, List.nil_append, List.head?_cons, Option.some.injEq] at hy
    subst hy
    revert hd; decide) (by
    simp only [List.mem_append, not_or]; exact ⟨by decide, xz 0 (by decide), by decide⟩)
  obtain ⟨l2, g2, p2⟩ := next_eq l1 (0x27 :: (x ++ [0x27, 0x0A])) junk (by rw [p1]; rfl) (by
    simp only [List.mem_cons, List.mem_append, not_or]; exact ⟨by decide, xz 0 (by decide), by decide, by decide, by decide⟩)
  have g3 := lexNext_complete protoOk junk l2 (a := []) (b := 0x27 :: x ++ [0x27]) (r := [0x0A]) (by rw [p2]; simp) (.nil _)
    (.quoted 0x27 (Or.inr rfl) x [0x0A] (fun c hc => ⟨fun e => xz c (by subst e; decide) hc, fun e => xz c (by
      rcases e with rfl | rfl <;> decide) hc⟩)) (by
    simp only [List.nil_append, List.mem_append, List.mem_cons, List.not_mem_nil, or_false, not_or]
    exact ⟨⟨⟨by decide, xz 0 (by decide)⟩, by decide⟩, by decide⟩)
  obtain ⟨l3, hl3, p3, t3⟩ : ∃ l3, lexNext protoStrs l2 = some (l3, lexStr) ∧ l3.pos = bs "\n" ++ 0 :: junk ∧ l3.text = x :=
    ⟨_, g3, rfl, List.take_of_length_le hl⟩
  have hsf : strField l1 = some (l3, some x) := by
    unfold strField
    rw [g2, Option.bind_some, if_pos rfl, hl3, Option.bind_some, if_pos rfl, t3]
  have hfv : fieldVal (some x) = some (lexDecode x) := by
    unfold fieldVal
    dsimp only
    rw [if_neg h0]
  obtain ⟨l4, h4, p4⟩ := parseGreeting_nl junk (n + 1) l3 (setUser {} (some (lexDecode x))) p3
  obtain ⟨l5, h5, _⟩ := next_eof l4 junk p4
  have e0 : (259 : Int) + ((6 : Nat) : Int) = tokHello := by decide
  have e1 : (259 : Int) + ((17 : Nat) : Int) = tokUser := by decide
  rw [e0] at g0
  rw [e1] at g1
  rw [greetingLoop, g0, Option.bind_some]
  dsimp only
  rw [if_pos rfl, parseGreeting, g1, Option.bind_some]
  dsimp only
  rw [if_pos rfl, hsf, Option.bind_some]
  dsimp only
  rw [hfv, h4, Option.bind_some, greetingLoop, h5, Option.bind_some]
  dsimp only
  rw [if_neg (by decide), if_pos (Or.inl rfl)]
  rfl

theorem high_decode (u : List UInt8) (h : ∀ c ∈ u, 0 < c ∧ c < 128) : lexDecode (u.map (· ||| 0x80)) = u ∧ ∀ c ∈ u.map (· ||| 0x80), 128 ≤ c := by
  have key : ∀ c : UInt8, 0 < c ∧ c < 128 → (c ||| 0x80) &&& 0x7F = c ∧ 128 ≤ c ||| 0x80 ∧ c ≠ 0 := by
    intro c
    have : ∀ n : Fin 256, 0 < UInt8.ofNat n.val ∧ UInt8.ofNat n.val < 128 → (UInt8.ofNat n.val ||| 0x80) &&& 0x7F = UInt8.ofNat n.val ∧ 128 ≤ UInt8.ofNat n.val ||| 0x80 ∧ UInt8.ofNat n.val ≠ 0 := by
      decide +kernel
    have := this ⟨c.toNat, c.toNat_lt⟩
    simpa using this
  constructor
  · unfold lexDecode
    rw [List.map_map]
    have e : u.map ((fun c => c &&& 0x7F) ∘ (· ||| 0x80)) = u := by
      conv => rhs; rw [← List.map_id u]
      apply List.map_congr_left
      intro c hc
      exact (key c (h c hc)).1
    rw [e]
    induction u with
    | nil => rfl
    | cons c u ih =>
      rw [List.takeWhile_cons, if_pos (by simpa using (key c (h c (by simp))).2.2), ih (fun x hx => h x (by simp [hx]))]
      simp only [List.map_cons, List.cons.injEq] at e
      exact e.2
  · intro c hc
    obtain ⟨x, hx, rfl⟩ := List.mem_map.1 hc
    exact (key x (h x hx)).2.1

end Conman
