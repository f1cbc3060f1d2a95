import Verif.Proofs.WireLemmas
import Verif.Spec.Demo
/-
Instruction data and the return register.
-/
namespace AOB
namespace Wire
variable {C : Type} [Borsh C]

omit [Borsh C] in
/-- The parameters are in range: integers fit their Rust types, the id list fits a `u32` length. -/
def InRange : Ix C → Prop
  | .createMarket p => p.minBaseOrderSize < 2 ^ 64 ∧ p.tickSize < 2 ^ 64
  | .newOrder p => p.maxBaseQty < 2 ^ 64 ∧ p.maxQuoteQty < 2 ^ 64 ∧ p.limitPrice < 2 ^ 64 ∧ p.matchLimit < 2 ^ 64
  | .consumeEvents n => n < 2 ^ 64
  | .cancelOrder id => id < 2 ^ 128
  | .closeMarket => True
  | .massCancelOrders ids => ids.length < 2 ^ 32 ∧ ∀ id ∈ ids, id < 2 ^ 128

omit [Borsh C] in
/-- The instruction number, as declared in `instruction.rs` 15-91. -/
def number : Ix C → UInt8
  | .createMarket _ => 0
  | .newOrder _ => 1
  | .consumeEvents _ => 2
  | .cancelOrder _ => 3
  | .closeMarket => 4
  | .massCancelOrders _ => 5

theorem map_ok {α β : Type} {x : Res α} {f : α → β} {b : β} : x.map f = .ok b ↔ ∃ a, x = .ok a ∧ f a = b := by
  cases x <;> simp [Except.map]

theorem decodeIx_cons (b : UInt8) (rest : Bytes) :
    decodeIx C (b :: rest) = match IxTag.ofU8 b with
      | some t => decodeParams C t rest
      | none => .error (.prog .invalidInstructionData) := by
  unfold decodeIx decodeTag
  cases h : IxTag.ofU8 b <;> simp [idx, bind, Except.bind, h]

/-- C45. Data made of the number of an instruction and the encoding of its parameters is dispatched to that
instruction with the same parameters. -/
theorem C45_decode (i : Ix C) (h : InRange i) : decodeIx C (number i :: i.params) = .ok i := by
  rw [decodeIx_cons]
  cases i with
  | createMarket p =>
    exact map_ok.2 ⟨p, (tryFromSlice_ok_iff codec_create).2 ⟨rfl, h⟩, rfl⟩
  | newOrder p =>
    exact map_ok.2 ⟨p, (tryFromSlice_ok_iff codec_newOrder).2 ⟨rfl, h⟩, rfl⟩
  | consumeEvents n => exact map_ok.2 ⟨n, (tryFromSlice_ok_iff (codec_uint 8)).2 ⟨rfl, h⟩, rfl⟩
  | cancelOrder id => exact map_ok.2 ⟨id, (tryFromSlice_ok_iff (codec_uint 16)).2 ⟨rfl, h⟩, rfl⟩
  | closeMarket => rfl
  | massCancelOrders ids => exact map_ok.2 ⟨ids, (tryFromSlice_ok_iff codec_vecU128).2 ⟨rfl, h⟩, rfl⟩

/-- C45, for the public bindings: all of them but `mass_cancel_orders` build data that is dispatched to the intended
instruction with the same parameters. -/
theorem C45_bindings (i : Ix C) (h : InRange i) (hm : ∀ ids, i ≠ .massCancelOrders ids) :
    decodeIx C i.binding = .ok i := by
  have : i.binding = number i :: i.params := by
    cases i <;> first | rfl | exact absurd rfl (hm _)
  rw [this, C45_decode i h]

/-- C45 does not hold for `instruction::mass_cancel_orders`: whatever the ids, its data is dispatched to
`close_market`. -/
theorem C45_mass_cancel_binding_witness (ids : List Nat) :
    decodeIx C (Ix.massCancelOrders ids : Ix C).binding = .ok .closeMarket := by
  rw [Ix.binding, decodeIx_cons]; rfl

/-- C45. Nothing else is accepted: accepted data is the instruction number followed by exactly the encoding of
in-range parameters, or is a `close_market` with anything after its number. -/
theorem C45_exact {data : Bytes} {i : Ix C} (h : decodeIx C data = .ok i) :
    InRange i ∧ (data = number i :: i.params ∨ i = .closeMarket ∧ ∃ r, data = 4 :: r) := by
  cases data with
  | nil => cases h
  | cons b rest =>
    rw [decodeIx_cons] at h
    unfold IxTag.ofU8 at h
    split at h <;> rename_i t ht <;> [skip; cases h]
    split at ht <;> rename_i hb
    · cases ht; subst hb
      obtain ⟨p, h1, rfl⟩ := map_ok.1 h
      obtain ⟨rfl, h2⟩ := (tryFromSlice_ok_iff codec_create).1 h1
      exact ⟨h2, .inl rfl⟩
    split at ht <;> rename_i hb
    · cases ht; subst hb
      obtain ⟨p, h1, rfl⟩ := map_ok.1 h
      obtain ⟨rfl, h2⟩ := (tryFromSlice_ok_iff codec_newOrder).1 h1
      exact ⟨h2, .inl rfl⟩
    split at ht <;> rename_i hb
    · cases ht; subst hb
      obtain ⟨p, h1, rfl⟩ := map_ok.1 h
      obtain ⟨rfl, h2⟩ := (tryFromSlice_ok_iff (codec_uint 8)).1 h1
      exact ⟨h2, .inl rfl⟩
    split at ht <;> rename_i hb
    · cases ht; subst hb
      obtain ⟨p, h1, rfl⟩ := map_ok.1 h
      obtain ⟨rfl, h2⟩ := (tryFromSlice_ok_iff (codec_uint 16)).1 h1
      exact ⟨h2, .inl rfl⟩
    split at ht <;> rename_i hb
    · cases ht; subst hb
      cases h
      exact ⟨trivial, .inr ⟨rfl, rest, rfl⟩⟩
    split at ht <;> rename_i hb
    · cases ht; subst hb
      obtain ⟨p, h1, rfl⟩ := map_ok.1 h
      obtain ⟨rfl, h2⟩ := (tryFromSlice_ok_iff codec_vecU128).1 h1
      exact ⟨h2, .inl rfl⟩
    · cases ht

/-- C45. An unknown instruction number is rejected with `InvalidInstructionData`. -/
theorem C45_unknown (b : UInt8) (rest : Bytes) (h : 5 < b) :
    decodeIx C (b :: rest) = .error (.prog .invalidInstructionData) := by
  rw [decodeIx_cons]
  have hn : ∀ c : UInt8, c ≤ 5 → b ≠ c := by
    intro c hc hbc; subst hbc; exact absurd h (UInt8.not_lt.2 hc)
  unfold IxTag.ofU8
  rw [if_neg (hn 0 (by decide)), if_neg (hn 1 (by decide)), if_neg (hn 2 (by decide)), if_neg (hn 3 (by decide)),
    if_neg (hn 4 (by decide)), if_neg (hn 5 (by decide))]

omit [Borsh C] in
theorem number_eq {i : Ix C} (h : number i = 4) : i = .closeMarket := by
  cases i <;> first | rfl | cases h

/-- Encodings of parameters of the same instruction: none is a proper prefix of another. -/
theorem params_prefix {i j : Ix C} (hi : InRange i) (hj : InRange j) (hn : number i = number j) {r : Bytes}
    (h : i.params = j.params ++ r) : r = [] := by
  cases i with
  | createMarket p =>
    cases j <;> first | exact (codec_create.prefix_free hi hj h).2 | (exfalso; simp [number] at hn)
  | newOrder p =>
    cases j <;> first | exact (codec_newOrder.prefix_free hi hj h).2 | (exfalso; simp [number] at hn)
  | consumeEvents n =>
    cases j <;> first | (exfalso; simp [number] at hn; done) | exact ((codec_uint 8).prefix_free hi hj h).2
  | cancelOrder id =>
    cases j <;> first | (exfalso; simp [number] at hn; done) | exact ((codec_uint 16).prefix_free hi hj h).2
  | closeMarket =>
    cases j <;> first | (exfalso; simp [number] at hn; done) | exact (List.append_eq_nil_iff.1 h.symm).2
  | massCancelOrders ids =>
    cases j <;> first | (exfalso; simp [number] at hn; done) | exact (codec_vecU128.prefix_free hi hj h).2

/-- C45. Over-long data is rejected (`close_market` apart, which ignores what follows its number). -/
theorem C45_overlong (i : Ix C) (h : InRange i) (hc : i ≠ .closeMarket) (extra : Bytes) (he : extra ≠ []) (j : Ix C) :
    decodeIx C (number i :: i.params ++ extra) ≠ .ok j := by
  intro hj
  obtain ⟨hr, hd | ⟨rfl, r, hd⟩⟩ := C45_exact hj
  · obtain ⟨h1, h2⟩ := List.cons.inj hd
    exact he (params_prefix hr h h1.symm h2.symm)
  · exact hc (number_eq (List.cons.inj hd).1)

/-- C45. Truncated data is rejected. -/
theorem C45_truncated (i : Ix C) (h : InRange i) (hc : i ≠ .closeMarket) (p tail : Bytes)
    (hp : p ++ tail = number i :: i.params) (ht : tail ≠ []) (j : Ix C) : decodeIx C p ≠ .ok j := by
  intro hj
  obtain ⟨hr, rfl | ⟨rfl, r, rfl⟩⟩ := C45_exact hj
  · obtain ⟨h1, h2⟩ := List.cons.inj hp
    exact ht (params_prefix h hr h1.symm h2.symm)
  · exact hc (number_eq (List.cons.inj hp).1.symm)

/-! ### C46: the register -/

/-- C46. What is written to the register is read back; it takes at most 42 bytes, one more than
`ORDER_SUMMARY_SIZE`; a long enough register always takes it and keeps its length and its other bytes. -/
theorem C46_register (r : Option OrderSummary) (h : ∀ s, r = some s → s.Fits) (data : Bytes)
    (hl : 42 ≤ data.length) :
    (encRegister r).length ≤ 42 ∧
    ∃ data' rest, writeRegister data r = .ok data' ∧ decRegister data' = some (r, rest) ∧
      data'.length = data.length ∧ data'.drop 42 = data.drop 42 := by
  have hlen : (encRegister r).length ≤ 42 := by
    cases r with
    | none => decide
    | some s =>
      simp only [encRegister, OrderSummary.enc, List.length_cons, List.length_append, toLE_length]
      cases s.postedOrderId <;> simp [encOptU128]
  refine ⟨hlen, encRegister r ++ data.drop (encRegister r).length, data.drop (encRegister r).length, ?_, ?_, ?_, ?_⟩
  · unfold writeRegister
    simp only
    rw [if_pos (by omega)]
  · cases r with
    | none => rfl
    | some s =>
      simp only [encRegister, List.cons_append, decRegister]
      rw [if_neg (by decide), if_pos trivial, codec_summary.dec_enc s _ (h s rfl)]
      rfl
  · rw [List.length_append, List.length_drop]; omega
  · rw [slice_skip _ _ _ hlen, List.drop_drop]
    congr 1; omega

/-- C46. The bound is tight: a posted order needs all 42 bytes, so that a register of `ORDER_SUMMARY_SIZE = 41` bytes
makes the instruction panic. -/
theorem C46_short_register_witness (s : OrderSummary) (id : Nat) (h : s.postedOrderId = some id) (data : Bytes)
    (hl : data.length = 41) : data.length = ORDER_SUMMARY_SIZE ∧ writeRegister data (some s) = .error .panic := by
  refine ⟨hl, ?_⟩
  unfold writeRegister
  simp only
  rw [if_neg]
  rw [hl]
  simp [encRegister, OrderSummary.enc, h, encOptU128]

/-! ### Concrete cases -/

def demoParams : NewOrderParams Bytes32 :=
  { maxBaseQty := 5, maxQuoteQty := 1000, limitPrice := 10 * 2 ^ 32, side := .ask, matchLimit := 10,
    callbackInfo := ⟨List.replicate 32 7, rfl⟩, postOnly := false, postAllowed := true,
    selfTradeBehavior := .cancelProvide }

example : InRange (.newOrder demoParams) ∧ InRange (.massCancelOrders [1, 2] : Ix Bytes32) := by
  simp [InRange, demoParams]

example : (Ix.newOrder demoParams).binding.length = 69 ∧
    decodeIx Bytes32 (Ix.newOrder demoParams).binding = .ok (.newOrder demoParams) := by decide +kernel

example : decodeIx Bytes32 ((Ix.newOrder demoParams).binding ++ [0]) = .error (.prog .invalidInstructionData) ∧
    decodeIx Bytes32 ((Ix.newOrder demoParams).binding.take 68) = .error (.prog .invalidInstructionData) ∧
    decodeIx Bytes32 [] = .error .panic := by decide +kernel

example : decodeIx Bytes32 (Ix.massCancelOrders [1, 2] : Ix Bytes32).binding = .ok .closeMarket ∧
    decodeIx Bytes32 (5 :: (Ix.massCancelOrders [1, 2] : Ix Bytes32).params) = .ok (.massCancelOrders [1, 2]) := by
  decide +kernel

example : demoSum.Fits := by
  refine ⟨?_, by decide, by decide, by decide⟩
  intro x hx
  have : x = 11 * 2 ^ 96 + (2 ^ 64 - 1 - 6) := (Option.some.inj hx).symm
  subst this; decide

example : (encRegister (some demoSum)).length = 42 ∧
    decRegister (encRegister (some demoSum) ++ [9, 9]) = some (some demoSum, [9, 9]) := by decide +kernel

/-! Each theorem applied. -/

example := C45_bindings (.newOrder demoParams) (by simp [InRange, demoParams]) (fun _ => by simp)
example := C45_exact (C := Bytes32) (data := 1 :: (Ix.newOrder demoParams).params) (i := .newOrder demoParams)
  (by decide +kernel)
example := C45_unknown (C := Bytes32) 6 [1, 2, 3] (by decide)
example := C45_overlong (.newOrder demoParams) (by simp [InRange, demoParams]) (by simp) [0] (by simp)
example := C45_truncated (.newOrder demoParams) (by simp [InRange, demoParams]) (by simp)
  ((Ix.newOrder demoParams).binding.take 68) ((Ix.newOrder demoParams).binding.drop 68) (by decide +kernel)
  (by decide +kernel)
example := C46_register (some demoSum) (fun s hs => by
  cases hs
  refine ⟨?_, by decide, by decide, by decide⟩
  intro x hx
  have : x = 11 * 2 ^ 96 + (2 ^ 64 - 1 - 6) := (Option.some.inj hx).symm
  subst this; decide) (List.replicate 50 1) (by decide)

end Wire
end AOB
