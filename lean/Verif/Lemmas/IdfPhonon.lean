import Verif.Spec.IdfPhonon
import Verif.Lemmas.IdfNeutron
/-!
Helper lemmas for files of phonon data.
-/

namespace Verif.IdfPhonon
open Idf
variable {α : Type}

theorem slice_mid (a b r : List UInt8) {i k : Nat} (hi : a.length = i) (hk : b.length = k) :
    slice (a ++ (b ++ r)) i k = .ok b := by
  unfold slice
  rw [List.drop_left' hi, List.take_left' hk]
  simp [hk]

theorem readInt_mid (a r : List UInt8) {i n : Nat} (hi : a.length = i) (hn : n < 2 ^ 31) :
    readInt (a ++ (leBytes 4 n ++ r)) i = .ok n := by
  unfold readInt
  rw [slice_mid a (leBytes 4 n) r hi (length_leBytes 4 n)]
  simp only [bind, Except.bind]
  rw [leNat_leBytes, Nat.mod_eq_of_lt (by omega)]

theorem readDoubles_end (c : Codec α) (a : List UInt8) {i n : Nat} (data : List α) (hi : a.length = i) (hn : data.length = n)
    (hs : ∀ x ∈ data, Stored c x) : readDoubles c (a ++ doubles c data) i n = .ok data := by
  unfold readDoubles
  rw [List.drop_left' hi]
  unfold doubles
  rw [length_tostring, List.length_map, hn, if_pos (by rfl), fromstring_tostring]
  simp only [bind, Except.bind, List.map_map]
  congr 1
  conv_rhs => rw [← List.map_id data]
  exact List.map_congr_left fun x hx => hs x hx

theorem decode_ascii (s : List Nat) (h : ∀ c ∈ s, c < 128) : decodeStr (s.map UInt8.ofNat) = .ok s := by
  have e : ∀ c ∈ s, (UInt8.ofNat c).toNat = c := fun c hc => by
    have := h c hc
    simp [UInt8.toNat_ofNat']; omega
  unfold decodeStr
  rw [if_pos]
  · rw [List.map_map]
    congr 1
    conv_rhs => rw [← List.map_id s]
    exact List.map_congr_left e
  · rw [List.all_map, List.all_eq_true]
    intro c hc
    have := h c hc
    have e := e c hc
    simp only [Function.comp, decide_eq_true_eq, UInt8.lt_iff_toNat_lt, e]
    exact this

/-- the bytes of the first three writes -/
def head (ft : List UInt8) (comment : List Nat) : List UInt8 :=
  packS 64 ft ++ (leBytes 4 1 ++ packS 1024 (comment.map UInt8.ofNat))

theorem head_length (ft : List UInt8) (comment : List Nat) : (head ft comment).length = 1092 := by
  simp only [head, List.length_append, length_packS, length_leBytes]

theorem emit_header (ft : List UInt8) {comment : List Nat} (hc : ∀ c ∈ comment, c < 128) (ps : List (Except Err (List UInt8))) :
    emit (header ft comment ++ ps) = (head ft comment ++ (emit ps).1, (emit ps).2) := by
  have : ascii comment = .ok (comment.map UInt8.ofNat) := by
    unfold ascii
    rw [if_pos]
    rw [List.all_eq_true]
    intro c h
    simpa using hc c h
  simp only [header, this, List.cons_append, List.nil_append, Except.map, emit, head, List.append_assoc]

theorem strip_comment {cm : List Nat} (h : Plain cm) : stripZeros (packS 1024 (cm.map UInt8.ofNat)) = cm.map UInt8.ofNat := by
  have e : ∀ c < 128, UInt8.ofNat c = 0 → c = 0 := by
    intro c hc h
    have := congrArg UInt8.toNat h
    simp [UInt8.toNat_ofNat'] at this
    omega
  apply stripZeros_packS
  · simpa using h.short
  · rw [List.head?_map]
    intro h'
    obtain ⟨a, ha, hb⟩ := Option.map_eq_some_iff.1 h'
    have := e a (h.ascii a (List.mem_of_head? ha)) hb
    rw [this] at ha
    exact h.head ha
  · rw [List.getLast?_map]
    intro h'
    obtain ⟨a, ha, hb⟩ := Option.map_eq_some_iff.1 h'
    have := e a (h.ascii a (List.mem_of_getLast? ha)) hb
    rw [this] at ha
    exact h.last ha

theorem readInfo_head {ft : List UInt8} {cm : List Nat} (hs : stripZeros (packS 64 ft) = ft) (ha : ft.all (· < 128) = true)
    (h : Plain cm) (r : List UInt8) : readInfo (head ft cm ++ r) = .ok ⟨ft.map UInt8.toNat, 1, cm⟩ := by
  unfold readInfo
  have e1 : slice (head ft cm ++ r) 0 64 = .ok (packS 64 ft) := by
    have := slice_mid [] (packS 64 ft) (leBytes 4 1 ++ packS 1024 (cm.map UInt8.ofNat) ++ r) (i := 0) (k := 64) rfl
      (length_packS _ _)
    simpa [head, List.append_assoc] using this
  have e2 : readInt (head ft cm ++ r) 64 = .ok 1 := by
    have := readInt_mid (packS 64 ft) (packS 1024 (cm.map UInt8.ofNat) ++ r) (i := 64) (n := 1) (length_packS _ _) (by norm_num)
    simpa [head, List.append_assoc] using this
  have e3 : slice (head ft cm ++ r) 68 1024 = .ok (packS 1024 (cm.map UInt8.ofNat)) := by
    have := slice_mid (packS 64 ft ++ leBytes 4 1) (packS 1024 (cm.map UInt8.ofNat)) r (i := 68) (k := 1024)
      (by simp only [List.length_append, length_packS, length_leBytes]) (length_packS _ _)
    simpa [head, List.append_assoc] using this
  rw [e1, e2, e3]
  simp only [bind, Except.bind]
  rw [hs, strip_comment h, decode_ascii cm h.ascii]
  unfold decodeStr
  rw [if_pos ha]

theorem packInt_ok {n : Nat} (h : n < 2 ^ 31) : packInt n = .ok (leBytes 4 n) := by
  unfold packInt; rw [if_pos h]

theorem arange_eq (n : Nat) {d : ℝ} (hd : d ≠ 0) :
    arange0 ((n - 0.1) * d) d = .ok ((List.range n).map fun (i : Nat) => (i : ℝ) * d) := by
  unfold arange0
  rw [if_neg hd, mul_div_assoc, div_self hd, mul_one]
  have : ⌈(n : ℝ) - 0.1⌉ = (n : ℤ) := by
    rw [Int.ceil_eq_iff]
    constructor
    · push_cast; norm_num
    · push_cast; norm_num
  rw [this]
  rfl

end Verif.IdfPhonon
