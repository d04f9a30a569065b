import Verif.Rib.BinaryLemmas

/-! # Binary number encodings from other writers (C49)

The aqsis writer uses few of the encodings of the RenderMan interface specification (appendix C.2);
these theorems say that the tokenizer reads all of the numeric ones as specified. -/
namespace Verif.Rib

/-- Bytes as a number, most significant first. -/
def beVal (bs : List Nat) : Nat := bs.foldl (fun v b => v * 256 + b) 0

theorem foldl_be (bs : List Nat) : ∀ v, bs.foldl (fun v b => v * 256 + b) v = v * 256 ^ bs.length + beVal bs := by
  induction bs with
  | nil => intro v; simp [beVal]
  | cons b bs ih =>
    intro v
    simp only [List.foldl_cons, beVal, List.length_cons]
    rw [ih, ih (0 * 256 + b), Nat.pow_succ, Nat.add_mul, Nat.zero_mul, Nat.zero_add, Nat.mul_assoc v,
      Nat.mul_comm 256, ← Nat.add_assoc]

theorem beVal_cons (b : Nat) (bs : List Nat) : beVal (b :: bs) = b * 256 ^ bs.length + beVal bs := by
  rw [beVal, List.foldl_cons, foldl_be]; simp

theorem beVal_append (a b : List Nat) : beVal (a ++ b) = beVal a * 256 ^ b.length + beVal b := by
  rw [beVal, List.foldl_append, foldl_be]; rfl

theorem beVal_lt (bs : List Nat) (h : ∀ b ∈ bs, b < 256) : beVal bs < 256 ^ bs.length := by
  induction bs with
  | nil => simp [beVal]
  | cons b bs ih =>
    rw [beVal_cons, List.length_cons, Nat.pow_succ]
    have h1 := ih fun c hc => h c (List.mem_cons_of_mem _ hc)
    have h2 : (b + 1) * 256 ^ bs.length ≤ 256 * 256 ^ bs.length := Nat.mul_le_mul_right _ (h b (by simp))
    rw [Nat.add_mul] at h2
    omega

theorem decodeInt_be (bs r : List Nat) : decodeInt bs.length (bs ++ r) = (beVal bs, r) := by
  induction bs with
  | nil => rfl
  | cons b bs ih => simp [decodeInt, getc, ih, beVal_cons]

theorem decodeInt_be' {n : Nat} (bs r : List Nat) (h : bs.length = n) : decodeInt n (bs ++ r) = (beVal bs, r) := by
  subst h; exact decodeInt_be bs r

theorem scan_code {st : TkSt} (ha : st.arr < 0) {c : Nat} (h1 : 128 ≤ c) (h2 : c < 200) (r : List Nat) :
    scan st (c :: r) = scanBin st c r := scan_bin ha h1 (by omega) (by omega) (by omega)

/-- **C49**, integers: codes 0200 to 0203 and one to four bytes.  The value is the one that the bytes
give, read as unsigned for up to three bytes and as two's complement for four. -/
theorem C49_integers (st : TkSt) (ha : st.arr < 0) (n : Nat) (hn : 1 ≤ n ∧ n ≤ 4) (bs : List Nat)
    (hlen : bs.length = n) (hb : ∀ b ∈ bs, b < 256) (rest : List Nat) :
    ∃ i : Int, scan st ((127 + n) :: bs ++ rest) = (.int i, st, rest) ∧
      (n < 4 → i = beVal bs) ∧ (n = 4 → (beVal bs < 2 ^ 31 → i = beVal bs) ∧
        (2 ^ 31 ≤ beVal bs → i = (beVal bs : Int) - 2 ^ 32)) := by
  have hd := decodeInt_be' bs rest hlen
  have hlt := beVal_lt bs hb
  refine ⟨toInt32 (beVal bs), ?_, ?_, ?_⟩
  · rw [List.cons_append, scan_code ha (by omega) (by omega)]
    unfold scanBin
    rw [if_pos (by omega), show 127 + n - 128 + 1 = n by omega, hd]
  · intro h4
    have : 256 ^ bs.length ≤ 256 ^ 3 := Nat.pow_le_pow_right (by omega) (by omega)
    rw [toInt32, if_pos (by omega)]
  · intro _
    exact ⟨fun h => by rw [toInt32, if_pos h], fun h => by rw [toInt32, if_neg (by omega)]⟩

example : (scan .init [129, 255, 254, 65]).1 = .int 65534 := by decide +kernel

/-- **C49**, fixed point: codes 0204 to 0217, one to four bytes with the point one to three bytes
from the right; the value (kept as whole part and numerator) is the number that the bytes give divided
by the power of 256. -/
theorem C49_fixed_point (st : TkSt) (ha : st.arr < 0) (n d : Nat) (hn : 1 ≤ n ∧ n ≤ 4) (hd : 1 ≤ d ∧ d ≤ 3)
    (bs : List Nat) (hlen : bs.length = n) (rest : List Nat) :
    ∃ whole num, scan st ((127 + 4 * d + n) :: bs ++ rest) = (.float (.fixed whole num d), st, rest) ∧
      whole * 256 ^ d + num = beVal bs ∧ ((∀ b ∈ bs, b < 256) → num < 256 ^ d) := by
  have hsplit : bs = bs.take (n - d) ++ bs.drop (n - d) := (List.take_append_drop _ _).symm
  have h1 : (bs.take (n - d)).length = n - d := by rw [List.length_take]; omega
  have h2 : (bs.drop (n - d)).length = min d n := by rw [List.length_drop]; omega
  refine ⟨beVal (bs.take (n - d)), beVal (bs.drop (n - d)), ?_, ?_, ?_⟩
  · rw [List.cons_append, scan_code ha (by omega) (by omega)]
    unfold scanBin
    rw [if_neg (by omega), if_pos (by omega), show (127 + 4 * d + n - 128) % 4 + 1 = n by omega,
      show (127 + 4 * d + n - 128) / 4 % 4 = d by omega]
    have e1 : decodeInt (n - d) (bs ++ rest) = (beVal (bs.take (n - d)), bs.drop (n - d) ++ rest) := by
      conv => lhs; rw [hsplit, List.append_assoc]
      exact decodeInt_be' _ _ h1
    simp only [e1, decodeInt_be' _ _ h2]
  · by_cases h : d ≤ n
    · conv => rhs; rw [hsplit]
      rw [beVal_append, h2, Nat.min_eq_left h]
    · have e : n - d = 0 := by omega
      simp [e, beVal]
  · intro hb
    have := beVal_lt (bs.drop (n - d)) fun b hm => hb b (List.mem_of_mem_drop hm)
    refine Nat.lt_of_lt_of_le this (Nat.pow_le_pow_right (by omega) ?_)
    omega

example : (scan .init [133, 3, 128, 65]).1 = .float (.fixed 3 128 1) := by decide +kernel

/-- **C49**, 32 and 64 bit floats: the bits are those of the bytes, most significant first. -/
theorem C49_floats (st : TkSt) (ha : st.arr < 0) (bs rest : List Nat) :
    (bs.length = 4 → scan st (164 :: bs ++ rest) = (.float (.bits32 (beVal bs)), st, rest)) ∧
    (bs.length = 8 → scan st (165 :: bs ++ rest) = (.float (.bits64 (beVal bs)), st, rest)) := by
  constructor
  · intro hlen
    rw [List.cons_append, scan_code ha (by omega) (by omega)]
    unfold scanBin
    rw [if_neg (by omega), if_neg (by omega), if_neg (by omega), if_neg (by omega), if_pos rfl,
      decodeInt_be' _ _ hlen]
  · intro hlen
    have hsplit : bs = bs.take 4 ++ bs.drop 4 := (List.take_append_drop _ _).symm
    have h1 : (bs.take 4).length = 4 := by rw [List.length_take]; omega
    have h2 : (bs.drop 4).length = 4 := by rw [List.length_drop]; omega
    rw [List.cons_append, scan_code ha (by omega) (by omega)]
    unfold scanBin
    rw [if_neg (by omega), if_neg (by omega), if_neg (by omega), if_neg (by omega), if_neg (by omega), if_pos rfl]
    have e1 : decodeInt 4 (bs ++ rest) = (beVal (bs.take 4), bs.drop 4 ++ rest) := by
      conv => lhs; rw [hsplit, List.append_assoc]
      exact decodeInt_be' _ _ h1
    simp only [e1, decodeInt_be' _ _ h2]
    conv => rhs; rw [hsplit, beVal_append, h2]

example : (scan .init [165, 63, 240, 0, 0, 0, 0, 0, 0, 65]).1 = .float (.bits64 0x3ff0000000000000) := by
  decide +kernel

end Verif.Rib
