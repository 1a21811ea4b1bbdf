import Verif.Model.Env
import Verif.Lemma.CStr

namespace Conman
open Spec (valueIn)

theorem getenv_eq (env : List (List UInt8)) (k : List UInt8) : getenv env k = valueIn env k := by
  induction env with
  | nil => rfl
  | cons s env ih =>
    rw [getenv]
    have hp : (k ++ [0x3D]).isPrefixOf s = true ↔ s.take (k.length + 1) = k ++ [0x3D] := by
      rw [List.isPrefixOf_iff_prefix, List.prefix_iff_eq_take]
      simp only [List.length_append, List.length_singleton]
      exact eq_comm
    unfold valueIn
    by_cases h : s.take (k.length + 1) = k ++ [0x3D]
    · rw [if_pos h, List.find?_cons_of_pos (by simpa using hp.2 h)]; rfl
    · rw [if_neg h, List.find?_cons_of_neg (by intro g; exact h (hp.1 (by simpa using g))), ih]; rfl

theorem getenv_mem {env : List (List UInt8)} {k v : List UInt8} (h : getenv env k = some v) : k ++ 0x3D :: v ∈ env := by
  induction env with
  | nil => simp [getenv] at h
  | cons s env ih =>
    rw [getenv] at h
    split at h
    · rename_i hs
      simp only [Option.some.injEq] at h
      have := List.take_append_drop (k.length + 1) s
      rw [hs, h] at this
      simp only [List.append_assoc, List.singleton_append] at this
      rw [this]; simp
    · exact List.mem_cons_of_mem _ (ih h)

/-- The block after the strings `ss`: the text so far, and where each string begins. -/
def starts (i : Nat) : List (List UInt8) → List (Option Nat)
  | [] => []
  | s :: ss => some i :: starts (i + s.length + 1) ss

def joined (ss : List (List UInt8)) : List UInt8 := (ss.map (· ++ [0])).flatten

theorem joined_append (a b : List (List UInt8)) : joined (a ++ b) = joined a ++ joined b := by simp [joined]

theorem starts_length (ss : List (List UInt8)) : ∀ i, (starts i ss).length = ss.length := by
  induction ss with
  | nil => intro i; rfl
  | cons s ss ih => intro i; simp [starts, ih]

theorem starts_append (a b : List (List UInt8)) : ∀ i, starts i (a ++ b) = starts i a ++ starts (i + (joined a).length) b := by
  induction a with
  | nil => intro i; simp [starts, joined]
  | cons s a ih =>
    intro i
    simp only [List.cons_append, starts, ih, List.cons.injEq, true_and]
    congr 2
    simp [joined]; omega

/-- The block holds the strings `ss` so far, in a block for `n` pointers and `len` bytes. -/
def Holds (b : EnvBlock) (ss : List (List UInt8)) (n len : Nat) : Prop :=
  b.num = ss.length ∧ b.ptr = (joined ss).length ∧ (∃ r, b.ptrs = starts 0 ss ++ r) ∧ b.ptrs.length = n ∧ (∃ r, b.mem = joined ss ++ r) ∧ b.mem.length = len

theorem Holds.add {b : EnvBlock} {ss : List (List UInt8)} {n len : Nat} (h : Holds b ss n len) (s : List UInt8) (hn : ss.length < n)
    (hl : (joined ss).length + s.length + 1 ≤ len) :
    ∃ b1, b.slot (some b.ptr) = some b1 ∧ b1.ptr = (joined ss).length ∧ b1.mem = b.mem ∧
      ∀ m, m = over b.mem (joined ss).length (s ++ [0]) → Holds { b1 with mem := m, ptr := (joined ss).length + s.length + 1 } (ss ++ [s]) n len := by
  obtain ⟨h1, h2, ⟨r, h3⟩, h4, ⟨q, h5⟩, h6⟩ := h
  refine ⟨{ b with ptrs := b.ptrs.set b.num (some b.ptr), num := b.num + 1 }, by unfold EnvBlock.slot; rw [if_pos (by omega)], h2, rfl, ?_⟩
  rintro m rfl
  refine ⟨by simp [h1], by simp [joined]; omega, ?_, by simp [h4], ?_, ?_⟩
  · dsimp only
    have hr : 0 < r.length := by
      have := congrArg List.length h3
      rw [List.length_append, starts_length] at this; omega
    cases r with
    | nil => simp at hr
    | cons x r =>
      refine ⟨r, ?_⟩
      rw [h3, h1, h2, ← starts_length ss 0, List.set_append_right _ _ (Nat.le_refl _), Nat.sub_self, starts_append]
      simp [starts]
  · dsimp only
    refine ⟨b.mem.drop ((joined ss).length + (s ++ [0]).length), ?_⟩
    unfold over
    rw [h5, List.take_left']
    · rw [joined_append]; simp [joined]
    · rfl
  · dsimp only
    rw [over_length (by simp; omega), h6]

theorem envLoop1_holds {n len : Nat} : ∀ (r : List (List UInt8)) (b : EnvBlock) (ss : List (List UInt8)), Holds b ss n len → ss.length + r.length ≤ n →
    (joined (ss ++ r)).length ≤ len → ∃ b', envLoop1 b r = some b' ∧ Holds b' (ss ++ r) n len
  | [], b, ss, h, _, _ => ⟨b, rfl, by rw [List.append_nil]; exact h⟩
  | s :: r, b, ss, h, hn, hl => by
    rw [joined_append, List.length_append] at hl
    have hl' : (joined ss).length + s.length + 1 ≤ len := by simp [joined] at hl ⊢; omega
    obtain ⟨b1, e1, e2, e3, e4⟩ := h.add s (by simp only [List.length_cons] at hn; omega) hl'
    rw [envLoop1, e1, Option.bind_some]
    have hc : b1.copy (s ++ [0]) = some { b1 with mem := over b.mem (joined ss).length (s ++ [0]), ptr := (joined ss).length + s.length + 1 } := by
      unfold EnvBlock.copy
      rw [e2, e3, pokes_eq _ (by rw [h.2.2.2.2.2]; simp; omega)]
      simp [Nat.add_assoc]
    rw [hc, Option.bind_some]
    have hh := e4 _ rfl
    obtain ⟨b', h1, h2⟩ := envLoop1_holds r _ (ss ++ [s]) hh (by simp only [List.length_append, List.length_cons, List.length_nil] at hn ⊢; omega)
      (by rw [joined_append, joined_append] at *; simp [joined] at hl ⊢; omega)
    exact ⟨b', h1, by rw [List.append_assoc] at h2; exact h2⟩

/-- The entries taken over. -/
def kept (env : List (List UInt8)) (ks : List (List UInt8)) : List (List UInt8) := ks.filterMap fun k => (getenv env k).map fun v => k ++ 0x3D :: v

theorem envLoop2_holds (env : List (List UInt8)) {n len : Nat} : ∀ (ks : List (List UInt8)) (b : EnvBlock) (ss : List (List UInt8)), Holds b ss n len →
    ss.length + (kept env ks).length ≤ n → (joined (ss ++ kept env ks)).length ≤ len →
    ∃ b', envLoop2 env b ks = some b' ∧ Holds b' (ss ++ kept env ks) n len
  | [], b, ss, h, _, _ => ⟨b, rfl, by simpa [kept] using h⟩
  | k :: ks, b, ss, h, hn, hl => by
    rw [envLoop2]
    cases hg : getenv env k with
    | none =>
      have e : kept env (k :: ks) = kept env ks := by simp [kept, hg]
      rw [e] at hn hl ⊢
      exact envLoop2_holds env ks b ss h hn hl
    | some v =>
      have e : kept env (k :: ks) = (k ++ 0x3D :: v) :: kept env ks := by simp [kept, hg]
      rw [e] at hn hl ⊢
      dsimp only
      have hl0 := hl
      rw [joined_append, List.length_append] at hl
      have hl' : (joined ss).length + (k ++ 0x3D :: v).length + 1 ≤ len := by simp [joined] at hl ⊢; omega
      obtain ⟨b1, e1, e2, e3, e4⟩ := h.add (k ++ 0x3D :: v) (by simp only [List.length_cons] at hn; omega) hl'
      rw [e1, Option.bind_some]
      have hm := h.2.2.2.2.2
      simp only [List.length_append, List.length_cons] at hl'
      have c1 : b1.copy k = some { b1 with mem := over b.mem (joined ss).length k, ptr := (joined ss).length + k.length } := by
        unfold EnvBlock.copy
        rw [e2, e3, pokes_eq _ (by omega)]
        rfl
      rw [c1, Option.bind_some]
      have l1 : (over b.mem (joined ss).length k).length = len := by rw [over_length (by omega), hm]
      have c2 : ∀ b1 : EnvBlock, EnvBlock.copy { b1 with mem := over b.mem (joined ss).length k, ptr := (joined ss).length + k.length } [0x3D] =
          some { b1 with mem := over b.mem (joined ss).length (k ++ [0x3D]), ptr := (joined ss).length + k.length + 1 } := by
        intro b1
        unfold EnvBlock.copy
        dsimp only
        rw [pokes_eq _ (by rw [l1]; simp; omega), over_over (by omega)]
        rfl
      rw [c2, Option.bind_some]
      have l2 : (over b.mem (joined ss).length (k ++ [0x3D])).length = len := by rw [over_length (by simp; omega), hm]
      have c3 : ∀ b1 : EnvBlock, EnvBlock.copy { b1 with mem := over b.mem (joined ss).length (k ++ [0x3D]), ptr := (joined ss).length + k.length + 1 } (v ++ [0]) =
          some { b1 with mem := over b.mem (joined ss).length ((k ++ 0x3D :: v) ++ [0]), ptr := (joined ss).length + (k ++ 0x3D :: v).length + 1 } := by
        intro b1
        unfold EnvBlock.copy
        dsimp only
        have := over_over (buf := b.mem) (i := (joined ss).length) (a := k ++ [0x3D]) (b := v ++ [0]) (by simp; omega)
        simp only [List.length_append, List.length_singleton, ← Nat.add_assoc] at this
        rw [pokes_eq _ (by rw [l2]; simp; omega), this]
        simp [Nat.add_assoc, Nat.add_comm, Nat.add_left_comm]
      rw [c3, Option.bind_some]
      have hh := e4 _ rfl
      obtain ⟨b', h1, h2⟩ := envLoop2_holds env ks _ (ss ++ [k ++ 0x3D :: v]) hh (by simp only [List.length_append, List.length_cons, List.length_nil] at hn ⊢; omega)
        (by rw [List.append_assoc]; exact hl0)
      exact ⟨b', h1, by rw [List.append_assoc] at h2; exact h2⟩

theorem envSize_eq (env restrict preserve : List (List UInt8)) :
    envSize env restrict preserve = ((restrict ++ kept env preserve).length + 1, (joined (restrict ++ kept env preserve)).length) := by
  unfold envSize
  have h1 : ∀ (l : List (List UInt8)) (x : Nat × Nat), l.foldl envCount1 x = (x.1 + l.length, x.2 + (joined l).length) := by
    intro l
    induction l with
    | nil => intro x; simp [joined]
    | cons s l ih => intro x; rw [List.foldl_cons, ih]; simp [joined, envCount1]; omega
  have h2 : ∀ (l : List (List UInt8)) (x : Nat × Nat), l.foldl (envCount2 env) x = (x.1 + (kept env l).length, x.2 + (joined (kept env l)).length) := by
    intro l
    induction l with
    | nil => intro x; simp [joined, kept]
    | cons k l ih =>
      intro x
      rw [List.foldl_cons, ih]
      cases hg : getenv env k with
      | none => simp [kept, hg, envCount2]
      | some v => simp [kept, hg, joined, envCount2]; omega
  rw [h1, h2, joined_append]
  simp only [List.length_append, Nat.zero_add, Prod.mk.injEq, and_true]; omega

theorem strings_holds (mem : List UInt8) : ∀ (ss : List (List UInt8)) (i : Nat) (r : List UInt8) (q : List (Option Nat)), (∀ s ∈ ss, (0 : UInt8) ∉ s) → mem.drop i = joined ss ++ r →
    EnvBlock.strings mem (starts i ss ++ none :: q) = some ss
  | [], i, r, q, _, _ => rfl
  | s :: ss, i, r, q, hz, hd => by
    have hj : joined (s :: ss) = s ++ 0 :: joined ss := by simp [joined]
    rw [hj, List.append_assoc, List.cons_append] at hd
    rw [starts, List.cons_append, EnvBlock.strings, hd, cstr_app (hz s (by simp)), Option.bind_some]
    have hd' : mem.drop (i + s.length + 1) = joined ss ++ r := by
      rw [Nat.add_assoc, ← List.drop_drop, hd]
      simp [List.drop_append]
    rw [strings_holds mem ss (i + s.length + 1) r q (fun t ht => hz t (by simp [ht])) hd']
    rfl

end Conman
