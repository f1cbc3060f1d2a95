import Verif.Props.Failure
/-
C36: `round_price` and the price grid.
-/
namespace AOB
variable {C : Type} [CallbackInfo C] {m m' : Market C} {p : NewOrderParams C} {s : OrderSummary}

/-- C36, bids: the largest multiple of the tick size that is not above the limit. -/
theorem C36_round_bid {tick limit : Nat} (ht : 0 < tick) (hl : limit < 2 ^ 64) :
    ∃ r, roundPrice tick limit .bid = .ok r ∧ tick ∣ r ∧ r ≤ limit ∧ ∀ k, tick ∣ k → k ≤ limit → k ≤ r := by
  have h1 : tick * (limit / tick) ≤ limit := Nat.mul_div_le limit tick
  refine ⟨tick * (limit / tick), ?_, Nat.dvd_mul_right _ _, h1, ?_⟩
  · have hU : U64 = 2 ^ 64 := rfl
    simp only [roundPrice, divU, mulU64]
    rw [if_neg (by omega), ok_bind, if_pos (by omega)]
  · rintro k ⟨j, rfl⟩ hk
    apply Nat.mul_le_mul_left
    rw [Nat.le_div_iff_mul_le ht, Nat.mul_comm]
    exact hk

/-- C36, asks: the smallest multiple of the tick size that is not below the limit. -/
theorem C36_round_ask {tick limit : Nat} (ht : 0 < tick) (hl : limit + tick < 2 ^ 64) :
    ∃ r, roundPrice tick limit .ask = .ok r ∧ tick ∣ r ∧ limit ≤ r ∧ ∀ k, tick ∣ k → limit ≤ k → r ≤ k := by
  have h1 : tick * ((limit + tick - 1) / tick) ≤ limit + tick - 1 := Nat.mul_div_le _ _
  have h2 : limit + tick - 1 < tick * ((limit + tick - 1) / tick) + tick := by
    have := Nat.div_add_mod (limit + tick - 1) tick
    have := Nat.mod_lt (limit + tick - 1) ht
    omega
  refine ⟨tick * ((limit + tick - 1) / tick), ?_, Nat.dvd_mul_right _ _, by omega, ?_⟩
  · have hU : U64 = 2 ^ 64 := rfl
    simp only [roundPrice, divU, mulU64, addU64, subU]
    rw [if_pos (by omega), ok_bind, if_pos (by omega), ok_bind, if_neg (by omega), ok_bind, if_pos (by omega)]
  · rintro k ⟨j, rfl⟩ hk
    apply Nat.mul_le_mul_left
    have hj : tick * ((limit + tick - 1) / tick) < tick * (j + 1) := by rw [Nat.mul_succ]; omega
    have := Nat.lt_of_mul_lt_mul_left hj
    omega

/-- C36: a valid price is left as it is. -/
theorem C36_round_valid {tick limit : Nat} (side : Side) (ht : 0 < tick) (hl : limit + tick < 2 ^ 64)
    (hd : tick ∣ limit) : roundPrice tick limit side = .ok limit := by
  cases side
  · obtain ⟨r, h1, _, h3, h4⟩ := C36_round_bid ht (show limit < 2 ^ 64 by omega)
    rw [h1, Nat.le_antisymm h3 (h4 limit hd (le_refl _))]
  · obtain ⟨r, h1, _, h3, h4⟩ := C36_round_ask ht hl
    rw [h1, Nat.le_antisymm (h4 limit hd (le_refl _)) h3]

/-- C36: `new_order` accepts only multiples of the tick size, and never complains about the price of a positive
multiple. -/
theorem C36_accepted_prices {c is} (h : ReachBy c is m) (hlen : is.length + 1 < 2 ^ 64)
    (hp : (Instr.newOrder p).Ok) :
    (∀ s m', m.newOrder p = .ok (s, m') → c.tick ∣ p.limitPrice) ∧
    (c.tick ∣ p.limitPrice → 0 < p.limitPrice → m.newOrder p ≠ .error (.ao .invalidLimitPrice)) := by
  constructor
  · intro s m' he
    by_contra hd
    rw [C19_bad_price h p (.inl hd)] at he
    cases he
  · intro hd hpos he
    rcases C19_only_failures h hlen hp hd (fun _ => Nat.le_of_dvd hpos hd) he with he | ⟨he, _⟩ <;> cases he

/-- C36: a rounded price is accepted. -/
theorem C36_rounded_accepted {c is} (h : ReachBy c is m) (hlen : is.length + 1 < 2 ^ 64)
    (hp : (Instr.newOrder p).Ok) {l r : Nat} (hl : l + c.tick < 2 ^ 64)
    (hr : roundPrice c.tick l p.side = .ok r) (hpos : 0 < r) (hpr : p.limitPrice = r) :
    m.newOrder p ≠ .error (.ao .invalidLimitPrice) := by
  have ht := h.1.tick
  refine (C36_accepted_prices h hlen hp).2 ?_ (by omega)
  rw [hpr]
  cases hs : p.side <;> rw [hs] at hr
  · obtain ⟨r', h1, h2, _⟩ := C36_round_bid ht (show l < 2 ^ 64 by omega)
    rw [h1] at hr; cases hr; exact h2
  · obtain ⟨r', h1, h2, _⟩ := C36_round_ask ht hl
    rw [h1] at hr; cases hr; exact h2

/-- C36, the bound is needed: a limit within one tick of `2^64` has no ask rounding (the sum overflows). -/
theorem C36_overflow {tick limit : Nat} (hl : 2 ^ 64 ≤ limit + tick) :
    roundPrice tick limit .ask = .error .panic := by
  have hU : U64 = 2 ^ 64 := rfl
  simp only [roundPrice, addU64]
  rw [if_neg (by omega)]; rfl

/-! ### A concrete case -/

example : roundPrice (2 ^ 31) (5 * 2 ^ 32 + 7) .bid = .ok (5 * 2 ^ 32) ∧
    roundPrice (2 ^ 31) (5 * 2 ^ 32 + 7) .ask = .ok (5 * 2 ^ 32 + 2 ^ 31) := by decide
example := C36_round_bid (tick := 2 ^ 31) (limit := 5 * 2 ^ 32 + 7) (by decide) (by decide)
example := C36_round_ask (tick := 2 ^ 31) (limit := 5 * 2 ^ 32 + 7) (by decide) (by decide)
example := C36_round_valid (tick := 2 ^ 31) (limit := 5 * 2 ^ 32) .ask (by decide) (by decide) (by decide)
example := C36_accepted_prices demo_reachBy (by decide) demoTake_ok
example := C36_rounded_accepted demo_reachBy (by decide) demoTake_ok (l := 11 * 2 ^ 32 + 7) (r := 11 * 2 ^ 32)
  (by decide) (by decide) (by decide) (by decide)
example := C36_overflow (tick := 2 ^ 31) (limit := 2 ^ 64 - 1) (by decide)

end AOB
