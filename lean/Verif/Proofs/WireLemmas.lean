import Verif.Spec.Range
import Verif.Proofs.LayoutLemmas
import Verif.Proofs.ResLemmas
/-
Borsh decoders invert the encoders, and accept nothing else.
-/
namespace AOB

/-- `dec` reads back what `enc` wrote for values satisfying `P`, leaving the rest, and accepts only that. -/
structure Codec {α : Type} (P : α → Prop) (enc : α → Bytes) (dec : Dec α) : Prop where
  dec_enc : ∀ x r, P x → dec (enc x ++ r) = some (x, r)
  enc_dec : ∀ b x r, dec b = some (x, r) → b = enc x ++ r ∧ P x

theorem codec_uint (n : Nat) : Codec (fun x => x < 256 ^ n) (toLE n) (Dec.uint n) where
  dec_enc x r h := by
    unfold Dec.uint
    rw [if_pos (by simp), slice_head _ _ _ (toLE_length _ _), slice_skip _ _ _ (by simp), toLE_length, Nat.sub_self,
      List.drop_zero, ofLE_toLE h]
  enc_dec b x r h := by
    unfold Dec.uint at h
    split at h <;> rename_i hn <;> [skip; cases h]
    obtain ⟨rfl, rfl⟩ := Prod.mk.inj (Option.some.inj h)
    have hl : (b.take n).length = n := by rw [List.length_take]; omega
    have h1 := toLE_ofLE (b.take n)
    have h2 := ofLE_lt (b.take n)
    rw [hl] at h1 h2
    exact ⟨by rw [h1, List.take_append_drop], h2⟩

theorem codec_bool : Codec (fun _ => True) encBool Dec.bool where
  dec_enc x r _ := by cases x <;> simp [encBool, Dec.bool]
  enc_dec b x r h := by
    cases b with
    | nil => cases h
    | cons b bs =>
      simp only [Dec.bool] at h
      split at h
      · obtain ⟨rfl, rfl⟩ := Prod.mk.inj (Option.some.inj h); simp_all [encBool]
      · split at h
        · obtain ⟨rfl, rfl⟩ := Prod.mk.inj (Option.some.inj h); simp_all [encBool]
        · cases h

theorem codec_side : Codec (fun _ => True) encSide Dec.side where
  dec_enc x r _ := by cases x <;> simp [encSide, Dec.side]
  enc_dec b x r h := by
    cases b with
    | nil => cases h
    | cons b bs =>
      simp only [Dec.side] at h
      split at h
      · obtain ⟨rfl, rfl⟩ := Prod.mk.inj (Option.some.inj h); simp_all [encSide]
      · split at h
        · obtain ⟨rfl, rfl⟩ := Prod.mk.inj (Option.some.inj h); simp_all [encSide]
        · cases h

theorem codec_selfTrade : Codec (fun _ => True) encSelfTrade Dec.selfTrade where
  dec_enc x r _ := by cases x <;> simp [encSelfTrade, Dec.selfTrade]
  enc_dec b x r h := by
    cases b with
    | nil => cases h
    | cons b bs =>
      simp only [Dec.selfTrade] at h
      split at h
      · obtain ⟨rfl, rfl⟩ := Prod.mk.inj (Option.some.inj h); simp_all [encSelfTrade]
      · split at h
        · obtain ⟨rfl, rfl⟩ := Prod.mk.inj (Option.some.inj h); simp_all [encSelfTrade]
        · split at h
          · obtain ⟨rfl, rfl⟩ := Prod.mk.inj (Option.some.inj h); simp_all [encSelfTrade]
          · cases h

theorem codec_borsh {C : Type} [Borsh C] : Codec (fun _ => True) (Borsh.enc (C := C)) Borsh.dec where
  dec_enc x r _ := Borsh.dec_enc x r
  enc_dec b x r h := ⟨Borsh.enc_dec b x r h, trivial⟩

theorem obind_some {α β : Type} {x : Option α} {f : α → Option β} {b : β} (h : (x >>= f) = some b) :
    ∃ a, x = some a ∧ f a = some b := by
  cases x with
  | none => cases h
  | some a => exact ⟨a, rfl, h⟩

theorem obind_of {α β : Type} {x : Option α} {f : α → Option β} {a : α} (h : x = some a) : (x >>= f) = f a := by
  rw [h]; rfl

theorem rep_enc {α : Type} {P : α → Prop} {enc : α → Bytes} {dec : Dec α} (hc : Codec P enc dec) (xs : List α)
    (h : ∀ x ∈ xs, P x) (r : Bytes) : Dec.rep dec xs.length ((xs.map enc).flatten ++ r) = some (xs, r) := by
  induction xs with
  | nil => rfl
  | cons x xs ih =>
    simp only [List.map_cons, List.flatten_cons, List.length_cons, Dec.rep, List.append_assoc]
    rw [obind_of (hc.dec_enc x _ (h x (by simp)))]
    simp only
    rw [obind_of (ih (fun y hy => h y (by simp [hy])))]

theorem rep_dec {α : Type} {P : α → Prop} {enc : α → Bytes} {dec : Dec α} (hc : Codec P enc dec) (n : Nat) :
    ∀ (b r : Bytes) (xs : List α), Dec.rep dec n b = some (xs, r) →
      xs.length = n ∧ b = (xs.map enc).flatten ++ r ∧ ∀ x ∈ xs, P x := by
  induction n with
  | zero => intro b r xs h; obtain ⟨rfl, rfl⟩ := Prod.mk.inj (Option.some.inj h); simp
  | succ n ih =>
    intro b r xs h
    obtain ⟨⟨x, b'⟩, h1, h⟩ := obind_some h
    obtain ⟨⟨ys, b''⟩, h2, h⟩ := obind_some h
    obtain ⟨rfl, rfl⟩ := Prod.mk.inj (Option.some.inj h)
    obtain ⟨rfl, hP⟩ := hc.enc_dec _ _ _ h1
    obtain ⟨h3, rfl, h4⟩ := ih _ _ _ h2
    refine ⟨by simp [h3], by simp, ?_⟩
    intro y hy
    rcases List.mem_cons.1 hy with rfl | hy
    · exact hP
    · exact h4 y hy

theorem codec_vecU128 :
    Codec (fun xs => xs.length < 256 ^ 4 ∧ ∀ x ∈ xs, x < 256 ^ 16) encVecU128 Dec.vecU128 where
  dec_enc xs r h := by
    unfold encVecU128 Dec.vecU128
    rw [List.append_assoc, obind_of ((codec_uint 4).dec_enc _ _ h.1)]
    exact rep_enc (codec_uint 16) xs h.2 r
  enc_dec b xs r h := by
    unfold Dec.vecU128 at h
    obtain ⟨⟨n, b'⟩, h1, h2⟩ := obind_some h
    obtain ⟨rfl, hn⟩ := (codec_uint 4).enc_dec _ _ _ h1
    obtain ⟨rfl, rfl, h4⟩ := rep_dec (codec_uint 16) n _ _ _ h2
    exact ⟨by simp [encVecU128], hn, h4⟩

theorem codec_optU128 : Codec (fun o => ∀ x, o = some x → x < 256 ^ 16) encOptU128 Dec.optU128 where
  dec_enc o r h := by
    cases o with
    | none => simp [encOptU128, Dec.optU128]
    | some x =>
      simp only [encOptU128, List.cons_append, Dec.optU128]
      rw [if_neg (by decide), if_pos trivial, (codec_uint 16).dec_enc _ _ (h x rfl)]
      rfl
  enc_dec b o r h := by
    cases b with
    | nil => cases h
    | cons b bs =>
      simp only [Dec.optU128] at h
      split at h <;> rename_i hb
      · obtain ⟨rfl, rfl⟩ := Prod.mk.inj (Option.some.inj h)
        subst hb
        exact ⟨rfl, by simp⟩
      · split at h <;> rename_i hb1 <;> [skip; cases h]
        subst hb1
        rw [Option.map_eq_some_iff] at h
        obtain ⟨⟨x, r'⟩, h1, h2⟩ := h
        obtain ⟨rfl, rfl⟩ := Prod.mk.inj h2
        obtain ⟨rfl, hx⟩ := (codec_uint 16).enc_dec _ _ _ h1
        exact ⟨rfl, fun y hy => by cases hy; exact hx⟩

theorem codec_create : Codec (fun p => p.minBaseOrderSize < 256 ^ 8 ∧ p.tickSize < 256 ^ 8) CreateParams.enc
    CreateParams.dec where
  dec_enc p r h := by
    unfold CreateParams.enc CreateParams.dec
    rw [List.append_assoc, obind_of ((codec_uint 8).dec_enc _ _ h.1)]
    simp only
    rw [obind_of ((codec_uint 8).dec_enc _ _ h.2)]
  enc_dec b p r h := by
    unfold CreateParams.dec at h
    obtain ⟨⟨x, b1⟩, h1, h⟩ := obind_some h
    obtain ⟨⟨y, b2⟩, h2, h⟩ := obind_some h
    obtain ⟨rfl, rfl⟩ := Prod.mk.inj (Option.some.inj h)
    obtain ⟨rfl, hx⟩ := (codec_uint 8).enc_dec _ _ _ h1
    obtain ⟨rfl, hy⟩ := (codec_uint 8).enc_dec _ _ _ h2
    exact ⟨by simp [CreateParams.enc], hx, hy⟩

theorem codec_newOrder {C : Type} [Borsh C] : Codec (NewOrderParams.Fits (C := C)) encNewOrder decNewOrder where
  dec_enc p r h := by
    obtain ⟨h1, h2, h3, h4⟩ := h
    unfold encNewOrder decNewOrder
    simp only [List.append_assoc]
    rw [obind_of ((codec_uint 8).dec_enc _ _ h1)]
    simp only
    rw [obind_of ((codec_uint 8).dec_enc _ _ h2)]
    simp only
    rw [obind_of ((codec_uint 8).dec_enc _ _ h3)]
    simp only
    rw [obind_of (codec_side.dec_enc _ _ trivial)]
    simp only
    rw [obind_of ((codec_uint 8).dec_enc _ _ h4)]
    simp only
    rw [obind_of (codec_borsh.dec_enc _ _ trivial)]
    simp only
    rw [obind_of (codec_bool.dec_enc _ _ trivial)]
    simp only
    rw [obind_of (codec_bool.dec_enc _ _ trivial)]
    simp only
    rw [obind_of (codec_selfTrade.dec_enc _ _ trivial)]
  enc_dec b p r h := by
    unfold decNewOrder at h
    obtain ⟨⟨x1, b1⟩, h1, h⟩ := obind_some h
    obtain ⟨⟨x2, b2⟩, h2, h⟩ := obind_some h
    obtain ⟨⟨x3, b3⟩, h3, h⟩ := obind_some h
    obtain ⟨⟨x4, b4⟩, h4, h⟩ := obind_some h
    obtain ⟨⟨x5, b5⟩, h5, h⟩ := obind_some h
    obtain ⟨⟨x6, b6⟩, h6, h⟩ := obind_some h
    obtain ⟨⟨x7, b7⟩, h7, h⟩ := obind_some h
    obtain ⟨⟨x8, b8⟩, h8, h⟩ := obind_some h
    obtain ⟨⟨x9, b9⟩, h9, h⟩ := obind_some h
    obtain ⟨rfl, rfl⟩ := Prod.mk.inj (Option.some.inj h)
    obtain ⟨rfl, e1⟩ := (codec_uint 8).enc_dec _ _ _ h1
    obtain ⟨rfl, e2⟩ := (codec_uint 8).enc_dec _ _ _ h2
    obtain ⟨rfl, e3⟩ := (codec_uint 8).enc_dec _ _ _ h3
    obtain ⟨rfl, -⟩ := codec_side.enc_dec _ _ _ h4
    obtain ⟨rfl, e5⟩ := (codec_uint 8).enc_dec _ _ _ h5
    obtain ⟨rfl, -⟩ := codec_borsh.enc_dec _ _ _ h6
    obtain ⟨rfl, -⟩ := codec_bool.enc_dec _ _ _ h7
    obtain ⟨rfl, -⟩ := codec_bool.enc_dec _ _ _ h8
    obtain ⟨rfl, -⟩ := codec_selfTrade.enc_dec _ _ _ h9
    exact ⟨by simp [encNewOrder], e1, e2, e3, e5⟩

theorem codec_summary : Codec OrderSummary.Fits OrderSummary.enc OrderSummary.dec where
  dec_enc s r h := by
    obtain ⟨h1, h2, h3, h4⟩ := h
    unfold OrderSummary.enc OrderSummary.dec
    simp only [List.append_assoc]
    rw [obind_of (codec_optU128.dec_enc _ _ h1)]
    simp only
    rw [obind_of ((codec_uint 8).dec_enc _ _ h2)]
    simp only
    rw [obind_of ((codec_uint 8).dec_enc _ _ h3)]
    simp only
    rw [obind_of ((codec_uint 8).dec_enc _ _ h4)]
  enc_dec b s r h := by
    unfold OrderSummary.dec at h
    obtain ⟨⟨x1, b1⟩, h1, h⟩ := obind_some h
    obtain ⟨⟨x2, b2⟩, h2, h⟩ := obind_some h
    obtain ⟨⟨x3, b3⟩, h3, h⟩ := obind_some h
    obtain ⟨⟨x4, b4⟩, h4, h⟩ := obind_some h
    obtain ⟨rfl, rfl⟩ := Prod.mk.inj (Option.some.inj h)
    obtain ⟨rfl, e1⟩ := codec_optU128.enc_dec _ _ _ h1
    obtain ⟨rfl, e2⟩ := (codec_uint 8).enc_dec _ _ _ h2
    obtain ⟨rfl, e3⟩ := (codec_uint 8).enc_dec _ _ _ h3
    obtain ⟨rfl, e4⟩ := (codec_uint 8).enc_dec _ _ _ h4
    exact ⟨by simp [OrderSummary.enc], e1, e2, e3, e4⟩

theorem tryFromSlice_ok_iff {α : Type} {P : α → Prop} {enc : α → Bytes} {dec : Dec α} (hc : Codec P enc dec)
    {b : Bytes} {x : α} : tryFromSlice dec b = .ok x ↔ b = enc x ∧ P x := by
  unfold tryFromSlice
  constructor
  · intro h
    split at h <;> rename_i heq
    · cases h
      obtain ⟨h1, h2⟩ := hc.enc_dec _ _ _ heq
      exact ⟨by rw [h1, List.append_nil], h2⟩
    · cases h
  · rintro ⟨rfl, h⟩
    have := hc.dec_enc x [] h
    rw [List.append_nil] at this
    rw [this]

/-- No encoding is a proper prefix of another. -/
theorem Codec.prefix_free {α : Type} {P : α → Prop} {enc : α → Bytes} {dec : Dec α} (hc : Codec P enc dec) {x y : α}
    {r : Bytes} (hx : P x) (hy : P y) (h : enc x = enc y ++ r) : x = y ∧ r = [] := by
  have h1 := hc.dec_enc x [] hx
  rw [List.append_nil, h, hc.dec_enc y r hy] at h1
  obtain ⟨rfl, rfl⟩ := Prod.mk.inj (Option.some.inj h1)
  exact ⟨rfl, rfl⟩

end AOB
