import Verif.Spec.Best
import Verif.Proofs.StepFacts
/-
The fills of a matching take the cheapest (for a seller: the dearest) units there are.
-/
namespace AOB
variable {C : Type}

@[simp] theorem amount_cons (o : Order C) (l : List (Order C)) (f) : amount (o :: l) f = f o + amount l f := by
  simp [amount]
@[simp] theorem bill_cons (o : Order C) (l : List (Order C)) (f) : bill (o :: l) f = f o * o.price + bill l f := by
  simp [bill]
@[simp] theorem amount_nil (f : Order C → Nat) : amount [] f = 0 := rfl
@[simp] theorem bill_nil (f : Order C → Nat) : bill [] f = 0 := rfl

theorem amount_congr {l : List (Order C)} {f g : Order C → Nat} (h : ∀ o ∈ l, f o = g o) : amount l f = amount l g := by
  unfold amount; rw [List.map_congr_left h]

theorem bill_congr {l : List (Order C)} {f g : Order C → Nat} (h : ∀ o ∈ l, f o = g o) : bill l f = bill l g := by
  unfold bill
  rw [List.map_congr_left (fun o ho => by rw [h o ho])]

theorem amount_zero {l : List (Order C)} {f : Order C → Nat} (h : ∀ o ∈ l, f o = 0) : amount l f = 0 := by
  induction l with
  | nil => rfl
  | cons o l ih => simp [h o, ih (fun x hx => h x (by simp [hx]))]

theorem bill_zero {l : List (Order C)} {f : Order C → Nat} (h : ∀ o ∈ l, f o = 0) : bill l f = 0 := by
  induction l with
  | nil => rfl
  | cons o l ih => simp [h o, ih (fun x hx => h x (by simp [hx]))]

theorem le_amount {l : List (Order C)} (f : Order C → Nat) {o : Order C} (h : o ∈ l) : f o ≤ amount l f := by
  induction l with
  | nil => cases h
  | cons x l ih =>
    rw [amount_cons]
    rcases List.mem_cons.1 h with rfl | h
    · omega
    · have := ih h; omega

theorem bill_ge {l : List (Order C)} (f : Order C → Nat) {k : Nat} (h : ∀ o ∈ l, k ≤ o.price) :
    amount l f * k ≤ bill l f := by
  induction l with
  | nil => simp
  | cons o l ih =>
    have h1 := ih (fun x hx => h x (by simp [hx]))
    have h2 := Nat.mul_le_mul_left (f o) (h o (by simp))
    rw [amount_cons, bill_cons, Nat.add_mul]; omega

theorem bill_le {l : List (Order C)} (f : Order C → Nat) {k : Nat} (h : ∀ o ∈ l, o.price ≤ k) :
    bill l f ≤ amount l f * k := by
  induction l with
  | nil => simp
  | cons o l ih =>
    have h1 := ih (fun x hx => h x (by simp [hx]))
    have h2 := Nat.mul_le_mul_left (f o) (h o (by simp))
    rw [amount_cons, bill_cons, Nat.add_mul]; omega

@[simp] theorem traded_nil (o : Order C) : traded ([] : List (Event C)) o = 0 := rfl

theorem traded_fill (s : Side) (i b q : Nat) (mc tc : C) (es : List (Event C)) (o : Order C) :
    traded (.fill s i b q mc tc :: es) o = (if o.id = i then b else 0) + traded es o := by
  unfold traded
  rw [fillsOf_fill]
  by_cases h : o.id = i
  · subst h; simp [sumBase_cons, Event.base]
  · rw [if_neg (Ne.symm h), if_neg h, Nat.zero_add]

@[simp] theorem traded_out (s : Side) (i b : Nat) (c : C) (es : List (Event C)) (o : Order C) :
    traded (.out s i b c :: es) o = traded es o := by
  unfold traded; rw [fillsOf_out]

theorem traded_none {es : List (Event C)} {o : Order C} (h : ∀ e ∈ es, e.id ≠ o.id) : traded es o = 0 := by
  unfold traded; rw [fillsOf_eq_nil h]; rfl

private theorem nodup_cons_ne {o : Order C} {rest : List (Order C)} (h : ((o :: rest).map Order.id).Nodup) :
    (∀ x ∈ rest, o.id ≠ x.id) ∧ (rest.map Order.id).Nodup := by
  rw [List.map_cons, List.nodup_cons] at h
  exact ⟨fun x hx hid => h.1 (by rw [hid]; exact List.mem_map_of_mem hx), h.2⟩

variable [CallbackInfo C] {p : NewOrderParams C} {minBase : Nat}

theorem Steps.traded_le {n opp b q es opp' b' q'} (h : Steps p minBase n opp b q es opp' b' q')
    (hnd : (opp.map Order.id).Nodup) :
    (∀ o ∈ opp, traded es o ≤ o.qty) ∧ (∀ o ∈ opp, SelfTrade p o → traded es o = 0) ∧
      amount opp (traded es) = sumBase (fills es) := by
  induction h with
  | refl => exact ⟨by simp, by simp, amount_zero (by simp)⟩
  | @selfOut n o rest b q es opp' b' q' _ hs _ hst ih =>
    obtain ⟨h1, h2⟩ := nodup_cons_ne hnd
    obtain ⟨g1, g2, g3⟩ := ih h2
    have h0 : traded es o = 0 := traded_none (hst.not_named (fun x hx => Ne.symm (h1 x hx)))
    refine ⟨?_, ?_, ?_⟩
    · intro x hx
      rw [traded_out]
      rcases List.mem_cons.1 hx with rfl | hx
      · omega
      · exact g1 x hx
    · intro x hx hsx
      rw [traded_out]
      rcases List.mem_cons.1 hx with rfl | hx
      · exact h0
      · exact g2 x hx hsx
    · rw [amount_cons, traded_out, h0, amount_congr (fun x _ => traded_out _ _ _ _ _ x), g3, fills_out, Nat.zero_add]
  | @fillOut n o rest b q es opp' b' q' _ hs _ hst ih =>
    obtain ⟨h1, h2⟩ := nodup_cons_ne hnd
    obtain ⟨g1, g2, g3⟩ := ih h2
    have h0 : traded es o = 0 := traded_none (hst.not_named (fun x hx => Ne.symm (h1 x hx)))
    have hr : ∀ x ∈ rest, traded (.fill p.side o.id (tradeQty o b q) (worth p.side (tradeQty o b q) o.price) o.cb p.callbackInfo ::
         .out p.side.opposite o.id (o.qty - tradeQty o b q) o.cb :: es) x = traded es x := by
      intro x hx
      rw [traded_fill, if_neg (Ne.symm (h1 x hx)), traded_out, Nat.zero_add]
    refine ⟨?_, ?_, ?_⟩
    · intro x hx
      rcases List.mem_cons.1 hx with rfl | hx
      · rw [traded_fill, if_pos rfl, traded_out, h0]; exact tradeQty_le.1
      · rw [hr x hx]; exact g1 x hx
    · intro x hx hsx
      rcases List.mem_cons.1 hx with rfl | hx
      · exact absurd hsx hs
      · rw [hr x hx]; exact g2 x hx hsx
    · rw [amount_cons, amount_congr hr, g3, traded_fill, if_pos rfl, traded_out, h0, fills_fill, fills_out, sumBase_cons]
      rfl
  | @fillKeep n o rest b q es opp' b' q' _ hs _ hst ih =>
    obtain ⟨h1, h2⟩ := nodup_cons_ne hnd
    obtain ⟨g1, g2, g3⟩ := ih (by simpa using hnd)
    have h0 := g1 _ (List.mem_cons_self ..)
    have hr : ∀ x ∈ rest, traded (.fill p.side o.id (tradeQty o b q) (worth p.side (tradeQty o b q) o.price) o.cb p.callbackInfo ::
         es) x = traded es x := by
      intro x hx
      rw [traded_fill, if_neg (Ne.symm (h1 x hx)), Nat.zero_add]
    have he : traded es { o with qty := o.qty - tradeQty o b q } = traded es o := rfl
    have hq : ({ o with qty := o.qty - tradeQty o b q } : Order C).qty = o.qty - tradeQty o b q := rfl
    have ht := (tradeQty_le (o := o) (b := b) (q := q)).1
    rw [he, hq] at h0
    refine ⟨?_, ?_, ?_⟩
    · intro x hx
      rcases List.mem_cons.1 hx with rfl | hx
      · rw [traded_fill, if_pos rfl]; omega
      · rw [hr x hx]; exact g1 x (by simp [hx])
    · intro x hx hsx
      rcases List.mem_cons.1 hx with rfl | hx
      · exact absurd hsx hs
      · rw [hr x hx]; exact g2 x (by simp [hx]) hsx
    · rw [amount_cons, he] at g3
      rw [amount_cons, amount_congr hr, traded_fill, if_pos rfl, fills_fill, sumBase_cons, ← g3]
      simp only [Event.base]; omega

/-- Better or equal prices first. -/
def Ordered (side : Side) (opp : List (Order C)) : Prop :=
  opp.Pairwise (fun x y => match side with | .bid => x.price ≤ y.price | .ask => y.price ≤ x.price)

/-- The quote cap of a seller is not met. -/
def Loose (side : Side) (opp : List (Order C)) (b q : Nat) : Prop :=
  side = .ask → ∀ o ∈ opp, b * o.price ≤ q * 2 ^ 32

omit [CallbackInfo C] in
/-- What a fill leaves of the caps of a seller still does not bind. -/
theorem Loose.next {o : Order C} {rest : List (Order C)} {b q : Nat} (h : Loose p.side (o :: rest) b q)
    (hs : Ordered p.side (o :: rest)) :
    Loose p.side rest (b - tradeQty o b q) (q - worth p.side (tradeQty o b q) o.price) := by
  intro ha x hx
  have h1 := h ha o (by simp)
  have h2 : x.price ≤ o.price := by
    have := (List.pairwise_cons.1 hs).1 x hx
    rw [ha] at this; exact this
  have h3 : tradeQty o b q ≤ b := tradeQty_le.2.1
  have h4 : worth p.side (tradeQty o b q) o.price * 2 ^ 32 ≤ tradeQty o b q * o.price := by
    rw [ha]; unfold worth; simp only; omega
  have h5 : (b - tradeQty o b q) * x.price ≤ (b - tradeQty o b q) * o.price := Nat.mul_le_mul_left _ h2
  have h6 : (b - tradeQty o b q) * o.price = b * o.price - tradeQty o b q * o.price := Nat.sub_mul ..
  have h7 : (q - worth p.side (tradeQty o b q) o.price) * 2 ^ 32 =
      q * 2 ^ 32 - worth p.side (tradeQty o b q) o.price * 2 ^ 32 := Nat.sub_mul ..
  omega

omit [CallbackInfo C] in
/-- After a trade that does not use up the order, nothing more can be traded. -/
theorem no_touch {o x : Order C} {b q : Nat} (hlt : tradeQty o b q < o.qty) (hpos : 0 < o.price)
    (hl : Loose p.side [o] b q) (hp : match p.side with | .bid => o.price ≤ x.price | .ask => x.price ≤ o.price) :
    ¬ Touch p x (b - tradeQty o b q) (q - worth p.side (tradeQty o b q) o.price) := by
  intro ht
  apply ht.qty
  by_cases hb : tradeQty o b q = b
  · rw [hb, Nat.sub_self]; unfold tradeQty; omega
  have ha : tradeQty o b q = affordable q o.price := by
    unfold tradeQty at hlt hb ⊢; omega
  have hlt2 : affordable q o.price < b := by
    have := (tradeQty_le (o := o) (b := b) (q := q)).2.1; omega
  cases hside : p.side with
  | ask =>
    exfalso
    have h1 := hl hside o (by simp)
    have : b ≤ affordable q o.price := by
      unfold affordable
      exact (Nat.le_div_iff_mul_le hpos).2 h1
    omega
  | bid =>
    rw [hside] at hp
    simp only at hp
    have h1 : q * 2 ^ 32 < (affordable q o.price + 1) * o.price := by
      unfold affordable
      rw [Nat.mul_comm (_ + 1)]
      exact Nat.lt_mul_div_succ _ hpos
    rw [Nat.add_mul, Nat.one_mul] at h1
    have h2 : affordable q o.price * o.price ≤ worth .bid (affordable q o.price) o.price * 2 ^ 32 := by
      unfold worth; simp only; omega
    have h3 : (q - worth .bid (tradeQty o b q) o.price) * 2 ^ 32 < x.price := by
      rw [ha, Nat.sub_mul]; omega
    have h4 : affordable (q - worth .bid (tradeQty o b q) o.price) x.price = 0 := by
      unfold affordable; exact Nat.div_eq_of_lt h3
    unfold tradeQty
    unfold tradeQty at h4
    rw [h4]; simp

theorem Steps.stops {n o opp b q es opp' b' q'} (h : Steps p minBase n (o :: opp) b q es opp' b' q')
    (hn : ¬ Touch p o b q) : es = [] := by
  cases h with
  | refl => rfl
  | selfOut ht => exact absurd ht hn
  | fillOut ht => exact absurd ht hn
  | fillKeep ht => exact absurd ht hn

/-- The fills are the best allocation, and any excess of another one costs at least (earns at most) `k` per unit. -/
theorem Steps.best {n opp b q es opp' b' q'} (h : Steps p minBase n opp b q es opp' b' q')
    (hnd : (opp.map Order.id).Nodup) (hs : Ordered p.side opp) (hl : Loose p.side opp b q)
    (hpos : ∀ o ∈ opp, 0 < o.price) (hmin : 0 < minBase) (f : Order C → Nat) (hf : ∀ o ∈ opp, f o ≤ o.qty)
    (hown : ∀ o ∈ opp, SelfTrade p o → f o = 0) (k d : Nat)
    (hk : ∀ o ∈ opp, match p.side with | .bid => k ≤ o.price | .ask => o.price ≤ k)
    (ham : amount opp f = amount opp (traded es) + d) :
    match p.side with
    | .bid => bill opp (traded es) + d * k ≤ bill opp f
    | .ask => bill opp f ≤ bill opp (traded es) + d * k := by
  have base : ∀ {opp : List (Order C)} {k d : Nat},
      (∀ o ∈ opp, match p.side with | .bid => k ≤ o.price | .ask => o.price ≤ k) → amount opp f = d →
      match p.side with | .bid => d * k ≤ bill opp f | .ask => bill opp f ≤ d * k := by
    intro opp k d hk hd
    subst hd
    cases hside : p.side <;> rw [hside] at hk
    · exact bill_ge f hk
    · exact bill_le f hk
  have part : ∀ {o : Order C} {rest : List (Order C)} {b q : Nat} {es : List (Event C)} {k d : Nat},
      (∀ x ∈ o :: rest, match p.side with | .bid => k ≤ x.price | .ask => x.price ≤ k) → Ordered p.side (o :: rest) →
      traded es o = tradeQty o b q → (∀ x ∈ rest, traded es x = 0) →
      amount (o :: rest) f = amount (o :: rest) (traded es) + d →
      match p.side with
      | .bid => bill (o :: rest) (traded es) + d * k ≤ bill (o :: rest) f
      | .ask => bill (o :: rest) f ≤ bill (o :: rest) (traded es) + d * k := by
    intro o rest b q es k d hk hs ho hr ham
    have hk' : ∀ x ∈ o :: rest, match p.side with | .bid => o.price ≤ x.price | .ask => x.price ≤ o.price := by
      intro x hx
      rcases List.mem_cons.1 hx with rfl | hx
      · cases p.side <;> exact le_refl _
      · exact (List.pairwise_cons.1 hs).1 x hx
    have h1 := base hk' ham
    have h2 := hk o (by simp)
    rw [amount_cons _ _ (traded es), amount_zero hr] at h1
    rw [bill_cons _ _ (traded es), bill_zero hr]
    cases hside : p.side <;> rw [hside] at h1 h2 <;> simp only at h1 h2 ⊢
    · have := Nat.mul_le_mul_left d h2
      rw [Nat.add_zero, Nat.add_mul] at h1
      omega
    · have := Nat.mul_le_mul_left d h2
      rw [Nat.add_zero, Nat.add_mul] at h1
      omega
  induction h generalizing k d with
  | @refl opp b q =>
    have h1 := base hk (d := d) (by rw [ham, amount_zero (by simp), Nat.zero_add])
    rw [bill_zero (by simp)]
    cases hside : p.side <;> rw [hside] at h1 <;> simpa using h1
  | @selfOut n o rest b q es opp' b' q' _ hst _ hst' ih =>
    obtain ⟨h1, h2⟩ := nodup_cons_ne hnd
    have h0 : traded es o = 0 := traded_none (hst'.not_named (fun x hx => Ne.symm (h1 x hx)))
    have hf0 := hown o (by simp) hst
    rw [amount_cons, amount_cons, hf0, traded_out, h0, amount_congr (fun x _ => traded_out _ _ _ _ _ x), Nat.zero_add,
      Nat.zero_add] at ham
    have := ih h2 (List.pairwise_cons.1 hs).2 (fun ha x hx => hl ha x (by simp [hx])) (fun x hx => hpos x (by simp [hx]))
      (fun x hx => hf x (by simp [hx])) (fun x hx => hown x (by simp [hx])) k d (fun x hx => hk x (by simp [hx])) ham
    rw [bill_cons, bill_cons, hf0, traded_out, h0, bill_congr (fun x _ => traded_out _ _ _ _ _ x), Nat.zero_mul,
      Nat.zero_add, Nat.zero_add]
    exact this
  | @fillOut n o rest b q es opp' b' q' ht hst hm hst' ih =>
    obtain ⟨h1, h2⟩ := nodup_cons_ne hnd
    have h0 : traded es o = 0 := traded_none (hst'.not_named (fun x hx => Ne.symm (h1 x hx)))
    have hr : ∀ x ∈ rest, traded (.fill p.side o.id (tradeQty o b q) (worth p.side (tradeQty o b q) o.price) o.cb p.callbackInfo ::
         .out p.side.opposite o.id (o.qty - tradeQty o b q) o.cb :: es) x = traded es x := by
      intro x hx
      rw [traded_fill, if_neg (Ne.symm (h1 x hx)), traded_out, Nat.zero_add]
    have ho : traded (.fill p.side o.id (tradeQty o b q) (worth p.side (tradeQty o b q) o.price) o.cb p.callbackInfo ::
         .out p.side.opposite o.id (o.qty - tradeQty o b q) o.cb :: es) o = tradeQty o b q := by
      rw [traded_fill, if_pos rfl, traded_out, h0, Nat.add_zero]
    by_cases hlt : tradeQty o b q < o.qty
    · have hnil : es = [] := by
        cases rest with
        | nil => cases hst'; rfl
        | cons x rest =>
          refine hst'.stops (no_touch hlt (hpos o (by simp)) (fun ha y hy => ?_) ((List.pairwise_cons.1 hs).1 x (by simp)))
          simp only [List.mem_singleton] at hy
          subst hy
          exact hl ha y (by simp)
      refine part hk hs ho ?_ ham
      intro x hx
      rw [hr x hx, hnil]; rfl
    · have hte : tradeQty o b q = o.qty := Nat.le_antisymm tradeQty_le.1 (Nat.not_lt.1 hlt)
      have hfo := hf o (by simp)
      have hko := hk o (by simp)
      rw [amount_cons, amount_cons, ho, amount_congr hr, hte] at ham
      have := ih h2 (List.pairwise_cons.1 hs).2 (hl.next hs) (fun x hx => hpos x (by simp [hx]))
        (fun x hx => hf x (by simp [hx])) (fun x hx => hown x (by simp [hx])) o.price (d + (o.qty - f o))
        (fun x hx => (List.pairwise_cons.1 hs).1 x hx) (by omega)
      rw [bill_cons, bill_cons, ho, bill_congr hr, hte]
      have e1 : (d + (o.qty - f o)) * o.price = d * o.price + (o.qty * o.price - f o * o.price) := by
        rw [Nat.add_mul, Nat.sub_mul]
      have e2 := Nat.mul_le_mul_right o.price hfo
      cases hside : p.side <;> rw [hside] at this hko <;> simp only at this hko ⊢ <;> rw [e1] at this <;>
        have e3 := Nat.mul_le_mul_left d hko <;> omega
  | @fillKeep n o rest b q es opp' b' q' ht hst hm hst' ih =>
    obtain ⟨h1, h2⟩ := nodup_cons_ne hnd
    have hlt : tradeQty o b q < o.qty := by omega
    have hnil : es = [] := by
      refine hst'.stops (no_touch hlt (hpos o (by simp)) (fun ha y hy => ?_) ?_)
      · simp only [List.mem_singleton] at hy
        subst hy
        exact hl ha y (by simp)
      · cases p.side <;> exact le_refl _
    subst hnil
    refine part hk hs (b := b) (q := q) ?_ ?_ ham
    · rw [traded_fill, if_pos rfl]; rfl
    · intro x hx
      rw [traded_fill, if_neg (Ne.symm (h1 x hx))]; rfl

private theorem add_slack {a b c d e f : Nat} (h1 : a ≤ b + c) (h2 : d ≤ e + f) : a + d ≤ b + e + (f + c) := by omega

/-- Rounding: at most one quote unit per fill, in favour of the maker. -/
theorem Steps.bill {n opp b q es opp' b' q'} (h : Steps p minBase n opp b q es opp' b' q')
    (hnd : (opp.map Order.id).Nodup) {k : Nat} (hk : k = 2 ^ 32 - 1) :
    match p.side with
    | .bid => sumQuote (fills es) * 2 ^ 32 ≤ AOB.bill opp (traded es) + (fills es).length * k ∧
        AOB.bill opp (traded es) ≤ sumQuote (fills es) * 2 ^ 32
    | .ask => AOB.bill opp (traded es) ≤ sumQuote (fills es) * 2 ^ 32 + (fills es).length * k ∧
        sumQuote (fills es) * 2 ^ 32 ≤ AOB.bill opp (traded es) := by
  have one : ∀ t price, match p.side with
      | .bid => worth p.side t price * 2 ^ 32 ≤ t * price + k ∧ t * price ≤ worth p.side t price * 2 ^ 32
      | .ask => t * price ≤ worth p.side t price * 2 ^ 32 + k ∧ worth p.side t price * 2 ^ 32 ≤ t * price := by
    intro t price
    subst hk
    cases p.side <;> simp only [worth] <;> omega
  induction h with
  | @refl opp b q =>
    have : AOB.bill opp (traded ([] : List (Event C))) = 0 := bill_zero (by simp)
    rw [this]
    cases p.side <;> simp [sumQuote]
  | @selfOut n o rest b q es opp' b' q' _ hs _ hst ih =>
    obtain ⟨h1, h2⟩ := nodup_cons_ne hnd
    have h0 : traded es o = 0 := traded_none (hst.not_named (fun x hx => Ne.symm (h1 x hx)))
    rw [bill_cons, traded_out, h0, bill_congr (fun x _ => traded_out _ _ _ _ _ x), fills_out, Nat.zero_mul, Nat.zero_add]
    exact ih h2
  | @fillOut n o rest b q es opp' b' q' _ hs _ hst ih =>
    obtain ⟨h1, h2⟩ := nodup_cons_ne hnd
    have ih := ih h2
    have h0 : traded es o = 0 := traded_none (hst.not_named (fun x hx => Ne.symm (h1 x hx)))
    have hr : ∀ x ∈ rest, traded (.fill p.side o.id (tradeQty o b q) (worth p.side (tradeQty o b q) o.price) o.cb p.callbackInfo ::
         .out p.side.opposite o.id (o.qty - tradeQty o b q) o.cb :: es) x = traded es x := by
      intro x hx
      rw [traded_fill, if_neg (Ne.symm (h1 x hx)), traded_out, Nat.zero_add]
    have h3 := one (tradeQty o b q) o.price
    rw [bill_cons, bill_congr hr, traded_fill, if_pos rfl, traded_out, h0, Nat.add_zero, fills_fill, fills_out, sumQuote_cons,
      List.length_cons, Nat.add_mul, Nat.add_mul, Nat.one_mul]
    simp only [Event.quote]
    clear hk one
    generalize worth p.side (tradeQty o b q) o.price = w at *
    generalize (fills es).length * k = l at *
    generalize tradeQty o b q * o.price = x at *
    cases hside : p.side <;> rw [hside] at ih h3 <;> simp only at ih h3 ⊢ <;>
      obtain ⟨i1, i2⟩ := ih <;> obtain ⟨j1, j2⟩ := h3 <;> generalize AOB.bill _ (traded es) = z at * <;>
      generalize sumQuote (fills es) = y at *
    · exact ⟨add_slack j1 i1, Nat.add_le_add j2 i2⟩
    · exact ⟨add_slack j1 i1, Nat.add_le_add j2 i2⟩
  | @fillKeep n o rest b q es opp' b' q' _ hs _ hst ih =>
    obtain ⟨h1, h2⟩ := nodup_cons_ne hnd
    have ih := ih (by simpa using hnd)
    have hr : ∀ x ∈ rest, traded (.fill p.side o.id (tradeQty o b q) (worth p.side (tradeQty o b q) o.price) o.cb p.callbackInfo ::
         es) x = traded es x := by
      intro x hx
      rw [traded_fill, if_neg (Ne.symm (h1 x hx)), Nat.zero_add]
    have h3 := one (tradeQty o b q) o.price
    have he : traded es { o with qty := o.qty - tradeQty o b q } = traded es o := rfl
    have hpr : ({ o with qty := o.qty - tradeQty o b q } : Order C).price = o.price := rfl
    rw [bill_cons, he, hpr] at ih
    rw [bill_cons, bill_congr hr, traded_fill, if_pos rfl, fills_fill, sumQuote_cons,
      List.length_cons, Nat.add_mul, Nat.add_mul, Nat.add_mul, Nat.one_mul, Nat.add_assoc (tradeQty o b q * o.price)]
    simp only [Event.quote]
    clear hk one
    generalize worth p.side (tradeQty o b q) o.price = w at *
    generalize (fills es).length * k = l at *
    generalize tradeQty o b q * o.price = x at *
    cases hside : p.side <;> rw [hside] at ih h3 <;> simp only at ih h3 ⊢ <;>
      obtain ⟨i1, i2⟩ := ih <;> obtain ⟨j1, j2⟩ := h3 <;> generalize AOB.bill _ (traded es) = z at * <;>
      generalize sumQuote (fills es) = y at *
    · exact ⟨add_slack j1 i1, Nat.add_le_add j2 i2⟩
    · exact ⟨add_slack j1 i1, Nat.add_le_add j2 i2⟩

end AOB
