import Verif.Model.CidText
import Verif.Lemmas.Exact
import Verif.Props.Dataset
import Mathlib.Data.Nat.Digits.Lemmas

/-!
Property C99: identifiers as text lead back to what they stand for.
-/
namespace Verif

namespace CidText

theorem number_append (b : Nat) (ds : List Nat) (d : Nat) : number b (ds ++ [d]) = number b ds * b + d := by
  simp [number, List.foldl_append]

theorem number_eq (b : Nat) : ∀ ds, number b ds = Nat.ofDigits b ds.reverse := by
  intro ds
  induction ds using List.reverseRecOn with
  | nil => rfl
  | append_singleton ds d ih =>
    rw [number_append, ih, List.reverse_append, List.reverse_singleton, List.singleton_append, Nat.ofDigits_cons]
    rw [Nat.mul_comm, Nat.add_comm]

theorem ofBE_eq (bs : List Byte) : ofBE bs = number 256 (bs.map BitVec.toNat) := by
  unfold ofBE number
  rw [List.foldl_map]

theorem digits_256 {bs : List Byte} (h : ∀ b ∈ bs.head?, b ≠ 0) :
    Nat.digits 256 (ofBE bs) = (bs.map BitVec.toNat).reverse := by
  rw [ofBE_eq, number_eq]
  refine Nat.digits_ofDigits 256 (by decide) _ (fun l hl => ?_) (fun hne => ?_)
  · rw [List.mem_reverse, List.mem_map] at hl
    obtain ⟨b, -, rfl⟩ := hl
    exact b.isLt
  · rw [List.getLast_reverse]
    cases bs with
    | nil => exact absurd rfl hne
    | cons b bs =>
      simp only [List.map_cons, List.head_cons]
      intro e
      exact h b (by simp) (BitVec.eq_of_toNat_eq e)

theorem digits_length (b : Nat) : ∀ k n, (digits b k n).length = k := by
  intro k
  induction k with
  | zero => intro n; rfl
  | succ k ih => intro n; simp [digits, ih]

theorem digits_lt {b : Nat} (hb : 0 < b) : ∀ k n, ∀ d ∈ digits b k n, d < b := by
  intro k
  induction k with
  | zero => intro n d hd; cases hd
  | succ k ih =>
    intro n d hd
    rcases List.mem_append.1 hd with h | h
    · exact ih _ d h
    · rw [List.mem_singleton.1 h]
      exact Nat.mod_lt _ hb

theorem number_digits {b : Nat} (hb : 0 < b) : ∀ k n, n < b ^ k → number b (digits b k n) = n := by
  intro k
  induction k with
  | zero =>
    intro n hn
    simp only [Nat.pow_zero] at hn
    simp only [digits, number, List.foldl_nil]
    omega
  | succ k ih =>
    intro n hn
    unfold digits
    rw [number_append, ih (n / b) ((Nat.div_lt_iff_lt_mul hb).2 (by rw [← Nat.pow_succ]; exact hn)), Nat.mul_comm]
    exact Nat.div_add_mod n b

theorem mapM_chars {alphabet : List Byte} {n : Nat} (h : ∀ d < n, digitOf alphabet (charOf alphabet d) = some d) :
    ∀ ds : List Nat, (∀ d ∈ ds, d < n) → (ds.map (charOf alphabet)).mapM (digitOf alphabet) = some ds := by
  intro ds
  induction ds with
  | nil => intro _; rfl
  | cons d ds ih =>
    intro hd
    rw [List.map_cons, List.mapM_cons, h d (hd d (by simp)), ih fun d hd' => hd d (by simp [hd'])]
    rfl

theorem digit58 : ∀ d < 58, digitOf base58 (charOf base58 d) = some d := by decide +kernel

theorem digit32 : ∀ d < 32, digitOf base32 (charOf base32 d) = some d := by decide +kernel

theorem takeWhile_of_head {β : Type} {p : β → Bool} {l : List β} (h : ∀ b ∈ l.head?, p b = false) :
    l.takeWhile p = [] := by
  cases l with
  | nil => rfl
  | cons a l => rw [List.takeWhile_cons, h a (by simp)]; rfl

theorem decode58_encode58 {bs : List Byte} (h : ∀ b ∈ bs.head?, b ≠ 0) : decode58 (encode58 bs) = some bs := by
  have h1 : bs.takeWhile (· = 0) = [] := takeWhile_of_head fun b hb => by simpa using h b hb
  unfold decode58 encode58
  rw [h1]
  simp only [List.length_nil, List.replicate_zero, List.nil_append]
  rw [mapM_chars digit58 _ fun d hd => Nat.digits_lt_base (by decide) (List.mem_reverse.1 hd)]
  simp only
  rw [number_eq, List.reverse_reverse, Nat.ofDigits_digits, digits_256 h, List.reverse_reverse]
  have h2 : (Nat.digits 58 (ofBE bs)).reverse.takeWhile (fun d => decide (d = 0)) = [] := by
    refine takeWhile_of_head fun d hd => ?_
    rw [List.head?_reverse] at hd
    by_cases hz : ofBE bs = 0
    · rw [hz] at hd
      simp at hd
    · have := Nat.getLast_digit_ne_zero 58 hz
      rw [List.getLast?_eq_some_getLast (Nat.digits_ne_nil_iff_ne_zero.2 hz)] at hd
      cases hd
      simpa using this
  rw [h2]
  simp [Function.comp_def]

theorem decode32_encode32 (bs : List Byte) : decode32 (encode32 bs) = some bs := by
  unfold decode32 encode32
  simp only
  rw [mapM_chars digit32 _ (digits_lt (by decide) _ _)]
  simp only [digits_length]
  have hk : 5 * ((8 * bs.length + 4) / 5) / 8 = bs.length := by omega
  have hk' : 8 * bs.length ≤ 5 * ((8 * bs.length + 4) / 5) := by omega
  have hk'' : 5 * ((8 * bs.length + 4) / 5) - 8 * bs.length < 5 := by omega
  rw [hk]
  generalize (8 * bs.length + 4) / 5 = k at *
  have hlt : ofBE bs * 2 ^ (5 * k - 8 * bs.length) < 32 ^ k := by
    have h1 : ofBE bs < 2 ^ (8 * bs.length) := by
      have := ofBE_lt bs
      rwa [show 256 = 2 ^ 8 by rfl, ← Nat.pow_mul] at this
    calc ofBE bs * 2 ^ (5 * k - 8 * bs.length) < 2 ^ (8 * bs.length) * 2 ^ (5 * k - 8 * bs.length) :=
          Nat.mul_lt_mul_of_pos_right h1 (Nat.pow_pos (by decide))
      _ = 2 ^ (5 * k) := by rw [← Nat.pow_add]; congr 1; omega
      _ = 32 ^ k := by rw [Nat.pow_mul]
  rw [number_digits (by decide) k _ hlt, Nat.mul_mod_left, Nat.mul_div_cancel _ (Nat.pow_pos (by decide)),
    if_neg (by omega), toBE_ofBE]

theorem slash58 : ∀ d < 58, charOf base58 d ≠ 47 := by decide +kernel

theorem slash32 : ∀ d < 32, charOf base32 d ≠ 47 := by decide +kernel

theorem go_none : ∀ {s : List Byte}, (47 : Byte) ∉ s → afterIpfs.go s = none := by
  intro s
  induction s with
  | nil => intro _; rfl
  | cons c cs ih =>
    intro h
    rw [List.mem_cons, not_or] at h
    unfold afterIpfs.go
    rw [if_neg ?_]
    · exact ih h.2
    · intro e
      have e : (ascii "/ipfs/") <+: c :: cs := List.isPrefixOf_iff_prefix.1 e
      obtain ⟨l, e⟩ := e
      exact h.1 (List.cons.inj e).1

theorem afterIpfs_none {s : List Byte} (h : (47 : Byte) ∉ s) : afterIpfs s = s := by
  unfold afterIpfs
  rw [go_none h]
  rfl

theorem go_some : ∀ {p s : List Byte}, (47 : Byte) ∉ p → afterIpfs.go (p ++ (ascii "/ipfs/" ++ s)) = some s := by
  intro p s
  induction p with
  | nil =>
    intro _
    rw [List.nil_append]
    have e : ascii "/ipfs/" ++ s = 47 :: (ascii "ipfs/" ++ s) := rfl
    rw [e]
    unfold afterIpfs.go
    rw [← e, if_pos (List.isPrefixOf_iff_prefix.2 (List.prefix_append _ _))]
    rfl
  | cons c cs ih =>
    intro h
    rw [List.mem_cons, not_or] at h
    rw [List.cons_append]
    unfold afterIpfs.go
    rw [if_neg ?_]
    · exact ih h.2
    · intro e
      have e : (ascii "/ipfs/") <+: c :: (cs ++ (ascii "/ipfs/" ++ s)) := List.isPrefixOf_iff_prefix.1 e
      obtain ⟨l, e⟩ := e
      exact h.1 (List.cons.inj e).1

theorem encode58_v0 {digest : List Byte} (h : digest.length = 32) :
    ∃ s, encode58 (Cid.v0 digest).toBytes = ascii "Qm" ++ s ∧ s.length = 44 ∧ (47 : Byte) ∉ s := by
  have hn : ofBE (Cid.v0 digest).toBytes = 0x1220 * 256 ^ 32 + ofBE digest := by
    have gen : ∀ (l : List Byte) (acc : Nat), l.foldl (fun acc b => acc * 256 + b.toNat) acc =
        acc * 256 ^ l.length + l.foldl (fun acc b => acc * 256 + b.toNat) 0 := by
      intro l
      induction l with
      | nil => intro acc; simp
      | cons b l ih =>
        intro acc
        rw [List.foldl_cons, List.foldl_cons, ih (acc * 256 + b.toNat), ih (0 * 256 + b.toNat), List.length_cons,
          Nat.pow_succ, Nat.add_mul, Nat.zero_mul, Nat.zero_add, Nat.mul_assoc, Nat.mul_comm 256, Nat.add_assoc]
    unfold ofBE Cid.toBytes
    rw [List.foldl_cons, List.foldl_cons, gen, h]
    rfl
  have hlt := ofBE_lt digest
  rw [h] at hlt
  have hz : ((Cid.v0 digest).toBytes.takeWhile (· = 0)) = [] :=
    takeWhile_of_head fun b hb => by
      simp only [Cid.toBytes, List.head?_cons, Option.mem_some_iff] at hb
      subst hb
      decide
  unfold encode58
  rw [hz, hn]
  simp only [List.length_nil, List.replicate_zero, List.nil_append]
  generalize hN : 0x1220 * 256 ^ 32 + ofBE digest = N
  have hlen : (Nat.digits 58 N).length = 46 := by
    have h1 : 45 < (Nat.digits 58 N).length := (Nat.lt_digits_length_iff (by decide) N).2 (by omega)
    have h2 : ¬ 46 < (Nat.digits 58 N).length := by
      rw [Nat.lt_digits_length_iff (by decide) N]
      omega
    omega
  have g45 : (Nat.digits 58 N).getD 45 0 = 23 := by
    rw [Nat.getD_digits N 45 (by decide)]
    have : N / 58 ^ 45 = 23 := by omega
    rw [this]
  have g44 : (Nat.digits 58 N).getD 44 0 = 44 := by
    rw [Nat.getD_digits N 44 (by decide)]
    have : N / 58 ^ 44 = 1378 := by omega
    rw [this]
  refine ⟨((Nat.digits 58 N).take 44).reverse.map (charOf base58), ?_, ?_, ?_⟩
  · have hl : Nat.digits 58 N = (Nat.digits 58 N).take 44 ++ [44, 23] := by
      have hd : (Nat.digits 58 N).drop 44 = [44, 23] := by
        rw [List.getD_eq_getElem?_getD] at g44 g45
        have e44 : (Nat.digits 58 N)[44]? = some 44 := by
          rw [List.getElem?_eq_getElem (by omega)] at g44 ⊢
          exact congrArg some g44
        have e45 : (Nat.digits 58 N)[45]? = some 23 := by
          rw [List.getElem?_eq_getElem (by omega)] at g45 ⊢
          exact congrArg some g45
        apply List.ext_getElem?
        intro i
        rw [List.getElem?_drop]
        match i with
        | 0 => exact e44
        | 1 => exact e45
        | i + 2 =>
          rw [List.getElem?_eq_none (by omega)]
          rfl
      rw [← hd, List.take_append_drop]
    rw [hl]
    simp only [List.reverse_append, List.map_append]
    have : (Nat.digits 58 N).take 44 = ((Nat.digits 58 N).take 44 ++ [44, 23]).take 44 := by
      rw [← hl]
    rw [← this]
    have e : List.map (charOf base58) [44, 23].reverse = ascii "Qm" := by decide +kernel
    rw [e]
  · simp only [List.length_map, List.length_reverse, List.length_take]
    omega
  · intro hm
    obtain ⟨d, hd, e⟩ := List.mem_map.1 hm
    exact slash58 d (Nat.digits_lt_base (by decide) (List.mem_of_mem_take (List.mem_reverse.1 hd))) e

end CidText

open CidText

theorem Cid.parse_bytes (c : Cid) (h : c.Valid) : Cid.parse c.toBytes = .ok (c, []) := by
  have := Cid.parse_rt c h []
  rwa [List.append_nil] at this

/-- Without a slash. -/
theorem Cid.text_slash (c : Cid) (h : c.Valid) : (47 : Byte) ∉ c.text := by
  cases c with
  | v0 digest =>
    obtain ⟨s, e, -, hs⟩ := encode58_v0 h
    simp only [Cid.text]
    rw [e]
    intro hm
    rcases List.mem_append.1 hm with hm | hm
    · revert hm; decide
    · exact hs hm
  | v1 codec code digest =>
    unfold Cid.text
    intro hm
    rcases List.mem_append.1 hm with hm | hm
    · revert hm; decide
    · unfold encode32 at hm
      obtain ⟨d, hd, e⟩ := List.mem_map.1 hm
      exact slash32 d (digits_lt (by decide) _ _ d hd) e

theorem Cid.ofText_after (other : List Byte → Option (List Byte)) (c : Cid) (h : c.Valid) (s : List Byte)
    (hs : afterIpfs s = c.text) : Cid.ofText other s = some c := by
  unfold Cid.ofText
  rw [hs]
  cases c with
  | v0 digest =>
    have hd : decode58 (Cid.v0 digest).text = some (Cid.v0 digest).toBytes := by
      unfold Cid.text
      refine decode58_encode58 fun b hb => ?_
      simp only [Cid.toBytes, List.head?_cons, Option.mem_some_iff] at hb
      subst hb
      decide
    obtain ⟨t, e, hl, -⟩ := encode58_v0 h
    have hlen : (Cid.v0 digest).text.length = 46 := by
      simp only [Cid.text]
      rw [e, List.length_append, hl]
      rfl
    have hp : (ascii "Qm").isPrefixOf (Cid.v0 digest).text = true := by
      simp only [Cid.text]
      rw [e]
      exact List.isPrefixOf_iff_prefix.2 (List.prefix_append _ _)
    simp only
    rw [if_neg (by omega), if_pos ⟨hlen, hp⟩, hd]
    simp only [Cid.parse_bytes _ h]
  | v1 codec code digest =>
    have e : (Cid.v1 codec code digest).text = 98 :: encode32 (Cid.v1 codec code digest).toBytes := rfl
    have hlen : 2 ≤ (Cid.v1 codec code digest).text.length := by
      rw [e, List.length_cons]
      unfold encode32
      simp only [List.length_map, digits_length]
      have : 1 ≤ (Cid.v1 codec code digest).toBytes.length := by
        simp only [Cid.toBytes, List.length_append]
        have : (writeVarint 1).length = 1 := by decide +kernel
        omega
      omega
    have hp : ¬ ((ascii "Qm").isPrefixOf (Cid.v1 codec code digest).text = true) := by
      rw [e]
      intro hp
      obtain ⟨l, hl⟩ := List.isPrefixOf_iff_prefix.1 hp
      have := (List.cons.inj hl).1
      revert this
      decide
    simp only
    rw [if_neg (by omega), if_neg (fun hh => hp hh.2), e]
    simp only
    rw [if_pos (by decide), decode32_encode32]
    simp only [Cid.parse_bytes _ h]

/-- C99: an identifier that was made a string is read from it. -/
theorem C99_round_trip (other : List Byte → Option (List Byte)) (c : Cid) (h : c.Valid) :
    Cid.ofText other c.text = some c :=
  Cid.ofText_after other c h _ (afterIpfs_none (c.text_slash h))

/-- C99: and so if it stands behind `/ipfs/`, and what is before has no slash. -/
theorem C99_path (other : List Byte → Option (List Byte)) (c : Cid) (h : c.Valid) (p : List Byte) (hp : (47 : Byte) ∉ p) :
    Cid.ofText other (p ++ (ascii "/ipfs/" ++ c.text)) = some c := by
  refine Cid.ofText_after other c h _ ?_
  unfold afterIpfs
  rw [go_some hp]
  rfl

/-- C99: identifiers that differ are different strings. -/
theorem C99_injective (c c' : Cid) (h : c.Valid) (h' : c'.Valid) (he : c.text = c'.text) : c = c' := by
  have h1 := C99_round_trip (fun _ => none) c h
  rw [he, C99_round_trip (fun _ => none) c' h'] at h1
  exact (Option.some.inj h1).symm

/-- C99: the string that `commit` gives leads to the data set, which says the same string, and the string of the version
before that the committed one had. -/
theorem C99_commit {H : Hash} {utf8 : List Byte → Bool} (other : List Byte → Option (List Byte)) (d : Dataset)
    (hd : d.WF utf8) (log log' : Saved) (s : List Byte) (hc : Py.commit H d log = (.ok s, log'))
    (hnc : log'.NoCollision H) :
    ∃ d', Py.getDataset other utf8 (log'.load H) s = .ok d' ∧ Py.cid d' = some s ∧ Py.prev d' = Py.prev d ∧
      d' = { d with cid := d'.cid } := by
  unfold Py.commit at hc
  cases hcm : d.commit H log with
  | mk r log'' =>
    rw [hcm] at hc
    cases r with
    | error f => cases hc
    | ok cid =>
      simp only [Prod.mk.injEq, Except.ok.injEq] at hc
      obtain ⟨rfl, rfl⟩ := hc
      have hv : cid.Valid := by
        have h1 : H.cidOf (Item.dataset d).bytes = cid := Except.ok.inj (congrArg Prod.fst hcm)
        rw [← h1]
        exact H.valid _
      refine ⟨{ d with cid := some cid }, ?_, rfl, rfl, rfl⟩
      unfold Py.getDataset Py.parseCid
      rw [C99_round_trip other cid hv]
      exact C34_round_trip d hd log cid log'' hcm hnc

/-- C99: the string of the version before, as a data set that was loaded says it, leads to that version. -/
theorem C99_prev {utf8 : List Byte → Bool} (other : List Byte → Option (List Byte)) (d : Dataset) (hd : d.WF utf8)
    (st : Store) (s : List Byte) (h : Py.prev d = some s) :
    ∃ cid, d.prev = some cid ∧ Py.getDataset other utf8 st s = st.getDataset utf8 cid ∧
      Py.ls other utf8 st s = st.ls utf8 cid := by
  unfold Py.prev at h
  obtain ⟨cid, hp, rfl⟩ := Option.map_eq_some_iff.1 h
  have hv : cid.Valid := hd.prev cid hp
  refine ⟨cid, hp, ?_, ?_⟩
  · unfold Py.getDataset Py.parseCid
    rw [C99_round_trip other cid hv]
  · unfold Py.ls Py.parseCid
    rw [C99_round_trip other cid hv]

/-- C99: strings that are no identifiers are a `ValueError`, whatever the store holds. -/
theorem C99_refused {utf8 : List Byte → Bool} (other : List Byte → Option (List Byte)) (st : Store) (s : List Byte)
    (h : Cid.ofText other s = none) :
    ∃ e, Py.getDataset other utf8 st s = .error (.err e) ∧ Py.ls other utf8 st s = .error (.err e) ∧
      e.exception = .value := by
  refine ⟨.cid, ?_, ?_, rfl⟩
  · unfold Py.getDataset Py.parseCid
    rw [h]
  · unfold Py.ls Py.parseCid
    rw [h]

/-- What `Qm…` and `b…` there are; a letter that is not in the alphabet, a string that is too short. -/
example : (Cid.v0 (List.replicate 32 0)).text = ascii "QmNLei78zWmzUdbeRB3CiUfAizWUrbeeZh5K1rhAQKCh51" ∧
    (Cid.v1 0x55 0x12 (List.replicate 32 1)).text = ascii "bafkreiabaeaqcaibaeaqcaibaeaqcaibaeaqcaibaeaqcaibaeaqcaibae" ∧
    Cid.ofText (fun _ => none) (ascii "QmNLei78zWmzUdbeRB3CiUfAizWUrbeeZh5K1rhAQKCh50") = none ∧
    Cid.ofText (fun _ => none) (ascii "b") = none := by
  decide +kernel

/-- The data set of the examples can be committed so. -/
example : exampleDataset.WF (fun _ => true) ∧ ∃ s log', Py.commit exampleHash exampleDataset [] = (.ok s, log') ∧
    log'.NoCollision exampleHash := by
  refine ⟨exampleWF, _, _, rfl, ?_⟩
  unfold Saved.NoCollision
  decide +kernel

end Verif
