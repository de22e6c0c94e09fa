import Verif.Model.IdfNeutron
import Verif.Spec.IdfNeutron
/-! Helper lemmas for the byte format. -/

namespace Verif.Idf
open Verif.Storage

theorem length_leBytes (k n : Nat) : (leBytes k n).length = k := by
  induction k generalizing n with
  | zero => rfl
  | succ k ih => simp [leBytes, ih]

theorem leNat_leBytes (k n : Nat) : leNat (leBytes k n) = n % 256 ^ k := by
  induction k generalizing n with
  | zero => simp [leBytes, leNat, Nat.mod_one]
  | succ k ih =>
    simp only [leBytes, leNat, ih]
    have : (UInt8.ofNat (n % 256)).toNat = n % 256 := by
      simp [UInt8.toNat_ofNat']
    rw [this, Nat.pow_succ, Nat.mul_comm (256 ^ k) 256, Nat.mod_mul]

theorem leBytes_getElem? (k n i : Nat) (h : i < k) :
    (leBytes k n)[i]? = some (UInt8.ofNat (n / 256 ^ i % 256)) := by
  induction k generalizing n i with
  | zero => omega
  | succ k ih =>
    cases i with
    | zero => simp [leBytes]
    | succ i =>
      simp only [leBytes, List.getElem?_cons_succ]
      rw [ih _ _ (by omega), Nat.div_div_eq_div_mul, Nat.pow_succ, Nat.mul_comm 256]

theorem length_packS (k : Nat) (s : List UInt8) : (packS k s).length = k := by
  simp [packS]; omega

theorem decode_encode (w : UInt64) : decodeDbl (encodeDbl w) = w := by
  simp only [decodeDbl, encodeDbl, leNat_leBytes, nbytes]
  apply UInt64.toNat_inj.mp
  rw [UInt64.toNat_ofNat']
  have := w.toNat_lt
  omega

theorem length_encodeDbl (w : UInt64) : (encodeDbl w).length = nbytes := length_leBytes _ _

theorem length_tostring (ws : List UInt64) : (tostring ws).length = nbytes * ws.length := by
  induction ws with
  | nil => rfl
  | cons w ws ih => simp only [tostring, List.flatMap_cons, List.length_append] at *
                    rw [ih, length_encodeDbl, List.length_cons]; simp only [nbytes]; omega

theorem tostring_append (a b : List UInt64) : tostring (a ++ b) = tostring a ++ tostring b := by
  simp [tostring]

theorem length_flatten_const {α} (k : Nat) (l : List (List α)) (h : ∀ x ∈ l, x.length = k) :
    l.flatten.length = k * l.length := by
  induction l with
  | nil => simp
  | cons x l ih =>
    rw [List.flatten_cons, List.length_append, ih (fun y hy => h y (by simp [hy])), h x (by simp),
      List.length_cons, Nat.mul_succ]
    omega

theorem chunkN_flatten {α} (k : Nat) (l : List (List α)) (h : ∀ x ∈ l, x.length = k) :
    chunkN k l.length l.flatten = l := by
  induction l with
  | nil => rfl
  | cons x l ih =>
    have hx : x.length = k := h x (by simp)
    simp only [List.length_cons, chunkN, List.flatten_cons]
    rw [List.take_left' hx, List.drop_left' hx, ih (fun y hy => h y (by simp [hy]))]

theorem fromstring_tostring (ws : List UInt64) : fromstring (tostring ws) = .ok ws := by
  have hl := length_tostring ws
  have h1 : (tostring ws).length % nbytes = 0 := by rw [hl]; simp
  have h2 : (tostring ws).length / nbytes = (ws.map encodeDbl).length := by
    rw [hl, List.length_map]; exact Nat.mul_div_cancel_left _ (by simp [nbytes])
  simp only [fromstring, h1, ne_eq, not_true_eq_false, if_false, h2]
  have : tostring ws = (ws.map encodeDbl).flatten := by simp [tostring, List.flatMap_def]
  rw [this, chunkN_flatten nbytes _ (by intro x hx; simp only [List.mem_map] at hx
                                        obtain ⟨w, -, rfl⟩ := hx; exact length_encodeDbl w)]
  rw [List.map_map]
  congr 1
  rw [show (decodeDbl ∘ encodeDbl) = id from funext decode_encode, List.map_id]

theorem reshape_flatten (rs : List (List UInt64)) (h : ∀ r ∈ rs, r.length = ndbls) :
    reshape rs.flatten = .ok rs := by
  have hl := length_flatten_const ndbls rs h
  have h1 : rs.flatten.length % ndbls = 0 := by rw [hl]; simp
  have h2 : rs.flatten.length / ndbls = rs.length := by
    rw [hl]; exact Nat.mul_div_cancel_left _ (by simp [ndbls])
  simp only [reshape, h1, ne_eq, not_true_eq_false, if_false, h2]
  rw [chunkN_flatten ndbls rs h]

theorem length_packHeader (ft : List UInt8) (ver : Nat) (c : List UInt8) (N : Nat) :
    (packHeader ft ver c N).length = headersize := by
  simp only [packHeader, List.length_append, length_packS, length_leBytes, headersize]

theorem length_records (rs : List (List UInt64)) (h : ∀ r ∈ rs, r.length = ndbls) :
    (tostring rs.flatten).length = neutronsize * rs.length := by
  rw [length_tostring, length_flatten_const ndbls rs h]
  simp only [neutronsize, nbytes, ndbls]; omega

theorem unpack_pack (ft : List UInt8) (ver : Nat) (c : List UInt8) (N : Nat) (rest : List UInt8)
    (hv : ver < 256 ^ 4) (hN : N < 256 ^ 8) :
    unpackHeader (packHeader ft ver c N ++ rest) =
      .ok ⟨packS titlesize ft, ver, packS commentsize c, N⟩ := by
  have hl := length_packHeader ft ver c N
  have ht : (packHeader ft ver c N ++ rest).take headersize = packHeader ft ver c N := by
    rw [List.take_left' hl]
  simp only [unpackHeader, ht, hl, ne_eq, not_true_eq_false, if_false]
  have e1 : (packS titlesize ft).length = titlesize := length_packS _ _
  have e2 : (leBytes versionsize ver).length = versionsize := length_leBytes _ _
  have e3 : (packS commentsize c).length = commentsize := length_packS _ _
  have e4 : (leBytes nsize N).length = nsize := length_leBytes _ _
  have a1 : (packHeader ft ver c N).take titlesize = packS titlesize ft := by
    simp only [packHeader, List.append_assoc]; rw [List.take_left' e1]
  have d1 : (packHeader ft ver c N).drop titlesize =
      leBytes versionsize ver ++ (packS commentsize c ++ leBytes nsize N) := by
    simp only [packHeader, List.append_assoc]; rw [List.drop_left' e1]
  have d2 : (packHeader ft ver c N).drop (titlesize + versionsize) =
      packS commentsize c ++ leBytes nsize N := by
    rw [← List.drop_drop, d1, List.drop_left' e2]
  have d3 : (packHeader ft ver c N).drop (titlesize + versionsize + commentsize) =
      leBytes nsize N := by
    rw [← List.drop_drop, d2, List.drop_left' e3]
  rw [a1, d1, d2, d3, List.take_left' e2, List.take_left' e3, leNat_leBytes,
    List.take_of_length_le (Nat.le_of_eq e4), leNat_leBytes]
  simp only [versionsize, nsize]
  rw [Nat.mod_eq_of_lt hv, Nat.mod_eq_of_lt hN]

theorem stripZeros_packS (k : Nat) (s : List UInt8) (hk : s.length ≤ k)
    (h0 : s.head? ≠ some 0) (h1 : s.getLast? ≠ some 0) : stripZeros (packS k s) = s := by
  have ht : s.take k = s := List.take_of_length_le hk
  have hrep : ∀ n, (List.replicate n (0 : UInt8)).dropWhile (· == 0) = [] := by
    intro n
    induction n with
    | zero => rfl
    | succ n ih => simp [List.replicate_succ, ih]
  have hrepl : ∀ n (t : List UInt8), (List.replicate n (0 : UInt8) ++ t).dropWhile (· == 0) =
      t.dropWhile (· == 0) := by
    intro n t
    induction n with
    | zero => rfl
    | succ n ih => simp [List.replicate_succ, ih]
  have hdw : ∀ t : List UInt8, t.head? ≠ some 0 → t.dropWhile (· == 0) = t := by
    intro t ht
    cases t with
    | nil => rfl
    | cons a t => 
      have : a ≠ 0 := by intro h; exact ht (by simp [h])
      simp [this]
  simp only [stripZeros, packS, ht]
  cases s with
  | nil => simp [hrep]
  | cons a s =>
    rw [hdw (a :: s ++ _) (by simpa using h0), List.reverse_append, List.reverse_replicate, hrepl, hdw,
      List.reverse_reverse]
    rw [List.head?_reverse]; exact h1

theorem fromWords_toWords (n : Neutron UInt64) : fromWords (toWords n) = some n := rfl

theorem mapM_fromWords (ns : List (Neutron UInt64)) : (ns.map toWords).mapM fromWords = some ns := by
  induction ns with
  | nil => rfl
  | cons n ns ih => simp [List.mapM_cons, ih, fromWords_toWords]

/-- reading a window of whole records out of `header ++ records ++ anything` -/
theorem readWindow_ok (hdr tail : List UInt8) (rs : List (List UInt64)) (hh : hdr.length = headersize)
    (hr : ∀ r ∈ rs, r.length = ndbls) (start n : Nat) (hn : 0 < n)
    (hin : tail = [] ∨ start + n ≤ rs.length) :
    readWindow (hdr ++ tostring rs.flatten ++ tail) start n = .ok (some ((rs.drop start).take n)) := by
  have hsel : ((hdr ++ tostring rs.flatten ++ tail).drop (headersize + neutronsize * start)).take
      (n * neutronsize) = tostring ((rs.drop start).take n).flatten := by
    have hall : ∀ a b : List (List UInt64), rs = a ++ b →
        (∀ r ∈ a, r.length = ndbls) ∧ (∀ r ∈ b, r.length = ndbls) := by
      intro a b h; subst h
      exact ⟨fun r h => hr r (by simp [h]), fun r h => hr r (by simp [h])⟩
    have h1 := hall _ _ (List.take_append_drop start rs).symm
    rw [List.append_assoc, ← List.drop_drop, List.drop_left' hh]
    by_cases hs : start ≤ rs.length
    · have e : tostring rs.flatten = tostring (rs.take start).flatten ++ tostring (rs.drop start).flatten := by
        rw [← tostring_append, ← List.flatten_append, List.take_append_drop]
      have e' : tostring (rs.drop start).flatten =
          tostring ((rs.drop start).take n).flatten ++ tostring ((rs.drop start).drop n).flatten := by
        rw [← tostring_append, ← List.flatten_append, List.take_append_drop]
      rw [e, List.append_assoc, List.drop_left' (by
        rw [length_records _ h1.1, List.length_take, Nat.min_eq_left hs])]
      have hT : ∀ r ∈ (rs.drop start).take n, r.length = ndbls :=
        fun r h => h1.2 r (List.mem_of_mem_take h)
      rcases hin with rfl | hin
      · rw [List.append_nil, e']
        by_cases hle : n ≤ (rs.drop start).length
        · rw [List.take_left']
          rw [length_records _ hT, List.length_take, Nat.min_eq_left hle, Nat.mul_comm]
        · have : (rs.drop start).drop n = [] := List.drop_eq_nil_of_le (by omega)
          rw [this]
          simp only [List.flatten_nil, tostring, List.flatMap_nil, List.append_nil]
          apply List.take_of_length_le
          rw [show (List.flatMap encodeDbl ((rs.drop start).take n).flatten) =
            tostring ((rs.drop start).take n).flatten from rfl, length_records _ hT, List.length_take]
          rw [Nat.mul_comm n]
          exact Nat.mul_le_mul_left _ (Nat.min_le_left _ _)
      · rw [e', List.append_assoc, List.take_left']
        rw [length_records _ hT, List.length_take, List.length_drop, Nat.min_eq_left (by omega), Nat.mul_comm]
    · have hd : rs.drop start = [] := List.drop_eq_nil_of_le (by omega)
      rcases hin with rfl | hin
      · rw [hd, List.append_nil]
        have : (tostring rs.flatten).drop (neutronsize * start) = [] := by
          apply List.drop_eq_nil_of_le
          rw [length_records _ hr]
          exact Nat.mul_le_mul_left _ (by omega)
        rw [this]; simp [tostring]
      · omega
  have hT : ∀ r ∈ (rs.drop start).take n, r.length = ndbls :=
    fun r h => hr r (List.mem_of_mem_drop (List.mem_of_mem_take h))
  have hn0 : ¬ ((n : Int) = 0) := by omega
  have hc : (start : Int) ≥ 0 ∧ (n : Int) > 0 := by omega
  simp only [readWindow, hn0, if_false, hc, and_self, if_true, Int.toNat_natCast]
  rw [hsel, fromstring_tostring]
  simp only [Except.bind]
  rw [reshape_flatten _ hT]

theorem readall_ok (ft : List UInt8) (ver : Nat) (c : List UInt8) (N : Nat) (rs : List (List UInt64))
    (hv : ver < 256 ^ 4) (hN : N < 256 ^ 8) (hr : ∀ r ∈ rs, r.length = ndbls) :
    readall (packHeader ft ver c N ++ tostring rs.flatten) =
      .ok (stripZeros (packS titlesize ft), ver, stripZeros (packS commentsize c), rs) := by
  simp only [readall, unpack_pack ft ver c N _ hv hN, Except.bind]
  rw [List.drop_left' (length_packHeader _ _ _ _), fromstring_tostring]
  simp only [reshape_flatten _ hr]

theorem write_layout (rs : List (List UInt64)) (comment : List UInt8)
    (h : ∀ r ∈ rs, r.length = 10) :
    HoldsRecords (write (.rows rs) comment).1 rs 0 ∧
      (write (.rows rs) comment).1.length = filesize rs.length := by
  have hlen : (write (.rows rs) comment).1.length = 1100 + 80 * rs.length := by
    simp only [write, List.length_append, length_packHeader, NpArr.data]
    rw [length_records rs h]
    rfl
  refine ⟨⟨by simpa using hlen, h, ?_⟩, ?_⟩
  · intro i j k r w hi hj hk
    have hi' : i < rs.length := (List.getElem?_eq_some_iff.mp hi).1
    have hjl : j < r.length := (List.getElem?_eq_some_iff.mp hj).1
    have hrl : r.length = 10 := h r (List.mem_of_getElem? hi)
    simp only [write, NpArr.data]
    have eh : (packHeader filetype version comment (NpArr.rows rs).len).length = 1100 := length_packHeader _ _ _ _
    rw [List.getElem?_append_right (by rw [eh]; omega), eh]
    have split : ∀ (l : List (List UInt64)) (a : Nat) (x : List UInt64), l[a]? = some x →
        l = l.take a ++ x :: l.drop (a + 1) := by
      intro l a x hx
      obtain ⟨hl, rfl⟩ := List.getElem?_eq_some_iff.mp hx
      simp
    have splitw : ∀ (l : List UInt64) (a : Nat) (x : UInt64), l[a]? = some x →
        l = l.take a ++ x :: l.drop (a + 1) := by
      intro l a x hx
      obtain ⟨hl, rfl⟩ := List.getElem?_eq_some_iff.mp hx
      simp
    have e1 := split rs i r hi
    have e2 := splitw r j w hj
    have htl : ∀ x ∈ rs.take i, x.length = ndbls := fun x hx => h x (List.mem_of_mem_take hx)
    have l1 : (tostring (rs.take i).flatten).length = 80 * i := by
      rw [length_records _ htl, List.length_take, Nat.min_eq_left (by omega)]; rfl
    have l2 : (tostring (r.take j)).length = 8 * j := by
      rw [length_tostring, List.length_take, Nat.min_eq_left (by omega)]; rfl
    have l3 : (encodeDbl w).length = 8 := length_encodeDbl w
    have hall : tostring rs.flatten = tostring (rs.take i).flatten ++ (tostring (r.take j) ++
        (encodeDbl w ++ (tostring (r.drop (j+1)) ++ tostring (rs.drop (i+1)).flatten))) := by
      have hw : tostring (w :: r.drop (j + 1)) = encodeDbl w ++ tostring (r.drop (j+1)) := by
        simp [tostring]
      rw [← List.append_assoc (encodeDbl w), ← hw, ← List.append_assoc (tostring (r.take j)),
        ← tostring_append, ← e2, ← tostring_append, ← tostring_append]
      conv => lhs; rw [e1]
      simp
    rw [hall, List.getElem?_append_right (by omega), List.getElem?_append_right (by omega),
      List.getElem?_append_left (by omega), encodeDbl, leBytes_getElem? _ _ _ (by simp only [nbytes]; omega)]
    congr 5
    omega
  · rw [hlen]; simp only [filesize, headersize, titlesize, versionsize, commentsize, nsize, ndbls, nbytes]; omega

/-- a file that holds records is header ++ records ++ rest -/
theorem holds_split (f : List UInt8) (rs : List (List UInt64)) (t : Nat) (h : HoldsRecords f rs t) :
    ∃ hdr tail, hdr.length = headersize ∧ tail.length = t ∧ f = hdr ++ tostring rs.flatten ++ tail := by
  obtain ⟨hl, hr, hb⟩ := h
  have hlt : (tostring rs.flatten).length = 80 * rs.length := length_records rs hr
  have hhs : headersize = 1100 := by decide
  refine ⟨f.take 1100, f.drop (1100 + 80 * rs.length), by rw [List.length_take, hl, hhs]; omega,
    by rw [List.length_drop, hl]; omega, ?_⟩
  have hmid : (f.drop 1100).take (80 * rs.length) = tostring rs.flatten := by
    apply List.ext_getElem?
    intro m
    by_cases hm : m < 80 * rs.length
    · rw [List.getElem?_take_of_lt hm, List.getElem?_drop]
      have hi : m / 80 < rs.length := by omega
      have hri : rs[m / 80]? = some rs[m / 80] := List.getElem?_eq_getElem hi
      have hrl : rs[m / 80].length = 10 := hr _ (List.getElem_mem hi)
      have hj : m % 80 / 8 < rs[m / 80].length := by omega
      have hwj : rs[m / 80][m % 80 / 8]? = some rs[m / 80][m % 80 / 8] := List.getElem?_eq_getElem hj
      have a1 := hb (m / 80) (m % 80 / 8) (m % 8) _ _ hri hwj (by omega)
      have a2 := (write_layout rs [] hr).1.2.2 (m / 80) (m % 80 / 8) (m % 8) _ _ hri hwj (by omega)
      have e : 1100 + 80 * (m / 80) + 8 * (m % 80 / 8) + m % 8 = 1100 + m := by omega
      rw [e] at a1 a2
      rw [a1, ← a2]
      simp only [write, NpArr.data]
      rw [List.getElem?_append_right (by rw [length_packHeader, hhs]; omega), length_packHeader, hhs,
        Nat.add_sub_cancel_left]
    · rw [List.getElem?_eq_none (by rw [List.length_take]; omega), List.getElem?_eq_none (by omega)]
  have h1 : (f.drop 1100).take (80 * rs.length) ++ f.drop (1100 + 80 * rs.length) = f.drop 1100 := by
    rw [← List.drop_drop]; exact List.take_append_drop _ _
  rw [← hmid, List.append_assoc, h1]
  exact (List.take_append_drop 1100 f).symm

end Verif.Idf
