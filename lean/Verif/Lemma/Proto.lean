import Verif.Props.CStr
import Verif.Props.Lex
import Verif.Props.File
import Verif.Model.Proto
import Verif.Spec.Proto

/-
Tokens of protocol messages.
-/
namespace Conman
open Spec

theorem protoOk : KeysOk protoStrs := C17_tables.1

theorem proto_letters : ∀ k ∈ protoStrs, k ≠ [] ∧ (∀ c ∈ k, letter c) ∧ (0 : UInt8) ∉ k := by decide

def identHead (r : List UInt8) : Prop := ∃ x, r.head? = some x ∧ (letter x ∨ digit x)

theorem next_key {i : Nat} {k : List UInt8} (hi : protoStrs[i]? = some k) (l : Lex) (pre rest junk : List UInt8) (hpre : pre = [] ∨ pre = [0x20])
    (hpos : l.pos = pre ++ (k ++ (rest ++ 0 :: junk))) (hr : ¬ identHead rest) (hz : (0 : UInt8) ∉ rest) :
    ∃ l', lexNext protoStrs l = some (l', 259 + (i : Int)) ∧ l'.pos = rest ++ 0 :: junk := by
  obtain ⟨hk0, hkl, hkz⟩ := proto_letters k (List.mem_of_getElem? hi)
  cases k with
  | nil => exact absurd rfl hk0
  | cons c w =>
    have hsk : Skips pre (c :: w ++ rest) := by
      rcases hpre with rfl | rfl
      · exact .nil _
      · exact .blank 0x20 (Or.inl rfl) [] _ (.nil _)
    have ht : IsToken protoStrs (c :: w) rest (c :: w) (.key i) :=
      .keyword c w rest (hkl c (by simp)) (fun x hx => Or.inl (hkl x (by simp [hx]))) (fun x hx hd => hr ⟨x, hx, hd⟩) i (c :: w) hi rfl
    refine ⟨_, lexNext_complete protoOk junk l (a := pre) (b := c :: w) (r := rest) (by rw [hpos]; simp) hsk ht ?_, rfl⟩
    simp only [List.mem_append, not_or]
    refine ⟨⟨?_, hkz⟩, hz⟩
    rcases hpre with rfl | rfl <;> decide

theorem next_eq (l : Lex) (rest junk : List UInt8) (hpos : l.pos = 0x3D :: (rest ++ 0 :: junk)) (hz : (0 : UInt8) ∉ rest) :
    ∃ l', lexNext protoStrs l = some (l', 0x3D) ∧ l'.pos = rest ++ 0 :: junk := by
  have ht : IsToken protoStrs [0x3D] rest [0x3D] (.chr 0x3D) := .chr 0x3D rest (by decide) (fun h => absurd h (by decide)) (fun h => absurd h (by decide))
  refine ⟨_, lexNext_complete protoOk junk l (a := []) (b := [0x3D]) (r := rest) (by rw [hpos]; simp) (.nil _) ht ?_, rfl⟩
  simp [hz]

theorem next_nl (l : Lex) (rest junk : List UInt8) (hpos : l.pos = 0x0A :: (rest ++ 0 :: junk)) (hz : (0 : UInt8) ∉ rest) :
    ∃ l', lexNext protoStrs l = some (l', lexEol) ∧ l'.pos = rest ++ 0 :: junk := by
  refine ⟨_, lexNext_complete protoOk junk l (a := []) (b := [0x0A]) (r := rest) (by rw [hpos]; simp) (.nil _) (.lf rest) ?_, rfl⟩
  simp [hz]

theorem next_eof (l : Lex) (junk : List UInt8) (hpos : l.pos = 0 :: junk) : ∃ l', lexNext protoStrs l = some (l', lexEof) ∧ l'.pos = 0 :: junk := by
  refine ⟨_, lexNext_complete protoOk junk l (a := []) (b := []) (r := []) (by rw [hpos]; simp) (.nil _) .eof (by simp), rfl⟩

theorem next_int (l : Lex) (d rest junk : List UInt8) (hd : d ≠ []) (hdd : ∀ c ∈ d, digit c) (hlen : d.length ≤ 1023)
    (hpos : l.pos = d ++ (rest ++ 0 :: junk)) (hr : ¬ identHead rest) (hz : (0 : UInt8) ∉ rest) :
    ∃ l', lexNext protoStrs l = some (l', lexInt) ∧ l'.pos = rest ++ 0 :: junk ∧ l'.text = d := by
  refine ⟨_, lexNext_complete protoOk junk l (a := []) (b := d) (r := rest) (by rw [hpos]; simp) (.nil _)
    (.number d rest hd hdd (fun x hx h => hr ⟨x, hx, Or.inr h⟩)) ?_, rfl, List.take_of_length_le hlen⟩
  simp only [List.nil_append, List.mem_append, not_or]
  exact ⟨fun h => absurd (hdd 0 h) (by decide), hz⟩

theorem plain_ne0 {s : List UInt8} (h : Plain s) : ∀ c ∈ s, c ≠ 0 ∧ ¬ isNl c := fun c hc =>
  ⟨by rintro rfl; exact absurd (h.1 0 hc).1 (by decide), (h.1 c hc).2.2⟩

theorem plain_decode {s : List UInt8} (h : Plain s) : lexDecode (lexEncode s) = s := encode_decode s (fun c hc => ⟨(h.1 c hc).1, (h.1 c hc).2.1⟩)

theorem next_str (l : Lex) (s rest junk : List UInt8) (hs : Plain s) (hpos : l.pos = 0x27 :: (lexEncode s ++ (0x27 :: rest ++ 0 :: junk)))
    (hz : (0 : UInt8) ∉ rest) : ∃ l', lexNext protoStrs l = some (l', lexStr) ∧ l'.pos = rest ++ 0 :: junk ∧ l'.text = lexEncode s := by
  have hsafe := encode_safe s (plain_ne0 hs)
  refine ⟨_, lexNext_complete protoOk junk l (a := []) (b := 0x27 :: lexEncode s ++ [0x27]) (r := rest) (by rw [hpos]; simp) (.nil _)
    (.quoted 0x27 (Or.inr rfl) (lexEncode s) rest (fun c hc => ⟨(hsafe c hc).2.1, (hsafe c hc).2.2.1⟩)) ?_, rfl, ?_⟩
  · simp only [List.nil_append, List.mem_append, List.mem_cons, List.not_mem_nil, or_false, not_or]
    exact ⟨⟨⟨by decide, fun h => (hsafe 0 h).2.2.2 rfl⟩, by decide⟩, hz⟩
  · exact List.take_of_length_le (by have := hs.2; simp [lexEncode]; omega)

theorem strField_eq (l : Lex) (s rest junk : List UInt8) (hs : Plain s) (hpos : l.pos = bs "='" ++ (lexEncode s ++ (bs "'" ++ (rest ++ 0 :: junk))))
    (hz : (0 : UInt8) ∉ rest) : ∃ l', strField l = some (l', some (lexEncode s)) ∧ l'.pos = rest ++ 0 :: junk := by
  have hsafe := encode_safe s (plain_ne0 hs)
  have hb : bs "='" = [0x3D, 0x27] := by decide
  have hb2 : bs "'" = [0x27] := by decide
  rw [hb, hb2] at hpos
  obtain ⟨l1, h1, p1⟩ := next_eq l (0x27 :: (lexEncode s ++ 0x27 :: rest)) junk (by rw [hpos]; simp) (by
    simp only [List.mem_cons, List.mem_append, not_or]
    exact ⟨by decide, fun h => (hsafe 0 h).2.2.2 rfl, by decide, hz⟩)
  obtain ⟨l2, h2, p2, t2⟩ := next_str l1 s rest junk hs (by rw [p1]; simp) hz
  refine ⟨l2, ?_, p2⟩
  unfold strField
  rw [h1, Option.bind_some, if_pos rfl, h2, Option.bind_some, if_pos rfl, t2]

theorem fieldVal_eq {s : List UInt8} (h : Plain s) : fieldVal (some (lexEncode s)) = if s = [] then none else some s := by
  unfold fieldVal
  by_cases h0 : s = []
  · subst h0; simp [lexEncode]
  · rw [if_neg h0]
    have : lexEncode s ≠ [] := by simpa [lexEncode] using h0
    simp only [this, if_false, plain_decode h]

theorem optField_eq {i : Nat} {k : List UInt8} (hi : protoStrs[i]? = some k) (l : Lex) (rest junk : List UInt8) (hpos : l.pos = bs "=" ++ (k ++ (rest ++ 0 :: junk)))
    (hr : ¬ identHead rest) (hz : (0 : UInt8) ∉ rest) : ∃ l', optField l = some (l', some (259 + (i : Int))) ∧ l'.pos = rest ++ 0 :: junk := by
  have hb : bs "=" = [0x3D] := by decide
  rw [hb] at hpos
  have hkz := (proto_letters k (List.mem_of_getElem? hi)).2.2
  obtain ⟨l1, h1, p1⟩ := next_eq l (k ++ rest) junk (by rw [hpos]; simp) (by
    simp only [List.mem_append, not_or]; exact ⟨hkz, hz⟩)
  obtain ⟨l2, h2, p2⟩ := next_key hi l1 [] rest junk (Or.inl rfl) (by rw [p1]; simp) hr hz
  refine ⟨l2, ?_, p2⟩
  unfold optField
  rw [h1, Option.bind_some, if_pos rfl, h2, Option.bind_some]

/-- What follows an argument: another one, or the end of the line. -/
def Tail (r : List UInt8) : Prop := (0 : UInt8) ∉ r ∧ (∃ x, r = bs " " ++ x) ∨ (0 : UInt8) ∉ r ∧ r = bs "\n"

theorem Tail.nz {r : List UInt8} (h : Tail r) : (0 : UInt8) ∉ r := by rcases h with h | h <;> exact h.1

theorem Tail.notIdent {r : List UInt8} (h : Tail r) : ¬ identHead r := by
  have e : bs " " = [0x20] := by decide
  rintro ⟨x, hx, hi⟩
  rcases h with ⟨_, y, rfl⟩ | ⟨_, rfl⟩
  · rw [e] at hx; simp at hx; subst hx; revert hi; decide
  · have : (bs "\n").head? = some 0x0A := by decide
    rw [this] at hx; cases hx; revert hi; decide

/-! ### Building -/

theorem cstr_replicate (size : Nat) (h : 0 < size) : cstr (List.replicate size 0) = some [] := by
  cases size with
  | zero => omega
  | succ n => exact cstr_app (a := []) (by simp)

theorem buildMsg_eq (size : Nat) (ps : List (List UInt8)) (l : List UInt8) (h0 : 0 < size) (hz : ∀ p ∈ ps, (0 : UInt8) ∉ p) (hl : ps.getLast? = some l) (hne : l ≠ []) :
    buildMsg size ps = some (if ps.flatten.length < size then some ps.flatten else none) := by
  obtain ⟨dst', h1, _, _, h4⟩ := C20_pieces_partial (List.replicate size 0) size ps (by simp) h0 (by cases size with | zero => omega | succ n => rfl) hz l hl hne 0
  unfold buildMsg
  rw [h1, Option.bind_some]
  dsimp only
  by_cases g : ps.flatten.length < size
  · rw [if_pos g, if_pos g, if_neg (by omega), h4, List.take_of_length_le (by omega)]; rfl
  · rw [if_neg g, if_neg g, if_pos (by omega)]

theorem protoStr_get {i : Nat} {k : List UInt8} (h : protoStrs[i]? = some k) : protoStr (259 + (i : Int)) = k := by
  unfold protoStr lexTokOffset
  have : (259 + (i : Int) - 259).toNat = i := by omega
  rw [this, List.getD_eq_getElem?_getD, h]
  rfl

theorem encode_nz {s : List UInt8} (h : Plain s) : (0 : UInt8) ∉ lexEncode s := fun hm => (encode_safe s (plain_ne0 h) 0 hm).2.2.2 rfl

theorem strArg_nz {i : Nat} {k : List UInt8} (hi : protoStrs[i]? = some k) {s : List UInt8} (h : Plain s) : (0 : UInt8) ∉ strArg (259 + (i : Int)) s := by
  unfold strArg
  rw [protoStr_get hi]
  simp only [List.mem_append, not_or]
  exact ⟨⟨⟨⟨by decide, (proto_letters k (List.mem_of_getElem? hi)).2.2⟩, by decide⟩, encode_nz h⟩, by decide⟩

theorem strArg_nl {i : Nat} {k : List UInt8} (hi : protoStrs[i]? = some k) {s : List UInt8} (h : Plain s) : (0x0A : UInt8) ∉ strArg (259 + (i : Int)) s := by
  unfold strArg
  rw [protoStr_get hi]
  simp only [List.mem_append, not_or]
  refine ⟨⟨⟨⟨by decide, fun hm => ?_⟩, by decide⟩, fun hm => (encode_safe s (plain_ne0 h) _ hm).2.2.1 (Or.inr rfl)⟩, by decide⟩
  exact absurd ((proto_letters k (List.mem_of_getElem? hi)).2.1 _ hm) (by decide)

theorem optArg_clean : ∀ k ∈ protoStrs, (0 : UInt8) ∉ bs " " ++ protoStr tokOption ++ bs "=" ++ k ∧ (0x0A : UInt8) ∉ bs " " ++ protoStr tokOption ++ bs "=" ++ k := by
  decide

/-! ### Receiving a line -/

theorem firstLine_eq {b more : List UInt8} (h : (0x0A : UInt8) ∉ b) : firstLine (b ++ 0x0A :: more) = b ++ [0x0A] := by
  induction b with
  | nil => simp [firstLine]
  | cons c b ih =>
    simp only [List.mem_cons, not_or] at h
    rw [List.cons_append, firstLine, if_neg (fun g => h.1 g.symm), ih h.2]; rfl

theorem readLine_msg {b more buf : List UInt8} {size m : Nat} {sched : List Sys} {r : LineRes} (hb : (0x0A : UInt8) ∉ b) (hsize : (b ++ bs "\n").length < size)
    (hbuf : size ≤ buf.length) (hr : readLine sched (b ++ bs "\n" ++ more) buf size = some r) (hm : r.fin = .ret m) :
    0 < m ∧ r.rest = more ∧ ∃ junk, r.buf = b ++ bs "\n" ++ 0 :: junk := by
  have e : bs "\n" = [0x0A] := by decide
  rw [e] at hsize hr ⊢
  rw [List.length_append, List.length_singleton] at hsize
  obtain ⟨r', h1, _, _, h4, _⟩ := C26_read_line sched (b ++ [0x0A] ++ more) buf size (by omega) hbuf
  rw [hr] at h1
  cases h1
  obtain ⟨g1, g2, g3, g4⟩ := h4 m hm
  have hfl : firstLine (b ++ [0x0A] ++ more) = b ++ [0x0A] := by
    rw [List.append_assoc, List.singleton_append]; exact firstLine_eq hb
  have htk : (b ++ [(0x0A : UInt8)]).take (size - 1) = b ++ [0x0A] := List.take_of_length_le (by rw [List.length_append, List.length_singleton]; omega)
  rw [hfl, htk] at g1 g4
  simp only [List.length_append, List.length_singleton] at g1
  have hm0 : 0 < m := by omega
  refine ⟨hm0, ?_, r.buf.drop (m + 1), ?_⟩
  · have : m = (b ++ [(0x0A : UInt8)]).length := by simp [g1]
    rw [g2, this, List.drop_left]
  · have := List.take_append_drop (m + 1) r.buf
    rw [g4 hm0] at this
    rw [List.append_assoc, List.singleton_append] at this
    exact this.symm

end Conman
