import Verif.Spec.WasmCheck
import Verif.Proofs.Bits
import Verif.Proofs.SelfCheck
import Verif.Proofs.WasmTree
import Verif.Props.WasmEdit
/-
The check of the older slab format passes exactly on well-formed slabs.
-/
namespace AOB.Wasm
variable {s : Slab}

/-- All orders of the tree are on the side `b` of a node with prefix length `p` and key `k`. -/
def Below (p k : Nat) (b : Bool) (t : Tree) : Prop :=
  ∀ o ∈ t.orders, Agree p o.id k ∧ o.id.testBit (127 - p) = b

theorem common_below {h p k : Nat} {l r : Tree} (hb : (Tree.inner h p k l r).Bits) (hc : (Tree.inner h p k l r).Common) :
    Below p k false l ∧ Below p k true r :=
  ⟨fun o ho => ⟨hc.1 o (by simp [ho]), hb.2.1 o ho⟩, fun o ho => ⟨hc.1 o (by simp [ho]), hb.2.2.1 o ho⟩⟩

theorem below_inner {h p k q k' : Nat} {b : Bool} {l r : Tree} (hb : (Tree.inner h q k' l r).Bits)
    (hc : (Tree.inner h q k' l r).Common) (hu : Below p k b (Tree.inner h q k' l r)) :
    p < q ∧ Agree p k k' ∧ k'.testBit (127 - p) = b := by
  obtain ⟨o1, h1⟩ := List.exists_mem_of_ne_nil _ (orders_ne l)
  obtain ⟨o2, h2⟩ := List.exists_mem_of_ne_nil _ (orders_ne r)
  have u1 := hu o1 (by simp [Tree.orders, h1])
  have u2 := hu o2 (by simp [Tree.orders, h2])
  have b1 := hb.2.1 o1 h1
  have b2 := hb.2.2.1 o2 h2
  have hq := hb.1
  have hpq : p < q := by
    rcases Nat.lt_trichotomy p q with h | h | h
    · exact h
    · subst h
      have e := u1.2.trans u2.2.symm
      rw [b1, b2] at e; cases e
    · have e1 := u1.1 (127 - q) (by omega)
      have e2 := u2.1 (127 - q) (by omega)
      rw [b1] at e1; rw [b2] at e2
      rw [← e1] at e2; cases e2
  have c1 := hc.1 o1 (by simp [h1])
  refine ⟨hpq, fun j hj => ?_, ?_⟩
  · rw [← u1.1 j hj, c1 j (by omega)]
  · rw [← c1 (127 - p) (by omega), u1.2]

theorem below_sub {h p k q k' : Nat} {b : Bool} {l r : Tree} (hu : Below p k b (Tree.inner h q k' l r)) :
    Below p k b l ∧ Below p k b r :=
  ⟨fun o ho => hu o (by simp [Tree.orders, ho]), fun o ho => hu o (by simp [Tree.orders, ho])⟩

theorem checkRec_ok : ∀ {t : Tree}, t.Stored s.getNode → t.Bits → t.Common → ∀ {fuel p k c : Nat} {b : Bool}, p < 128 →
    k < 2 ^ 128 → 129 ≤ fuel + p → Below p k b t → checkRec s.getNode fuel t.slot p k b c = .ok (c + t.slots.length) := by
  intro t
  induction t with
  | leaf h o =>
    intro hs _ _ fuel p k c b hp hk hf hu
    obtain ⟨f, rfl⟩ : ∃ f, fuel = f + 1 := ⟨fuel - 1, by omega⟩
    have hg : s.getNode h = .ok (.leaf o.id o.cb o.qty) := hs
    have hid := (get_fits hg).1
    obtain ⟨u1, u2⟩ := hu o (by simp [Tree.orders])
    rw [checkRec]
    show (s.getNode h >>= _) = _
    rw [hg]
    simp only [ok_bind, Node.prefixLen!, Node.key!, critBitMask_ok hp, prefixMask_ok hp]
    rw [(assertThat_ok (u := ())).2 (by simp [hp]), ok_bind, (assertThat_ok (u := ())).2 (by rw [and_mask, u2]; simp), ok_bind,
      (assertThat_ok (u := ())).2 ((prefix_eq_iff hp hk hid).2 u1.symm), ok_bind]
    simp [Tree.slots]
  | inner h q k' l r ihl ihr =>
    intro hs hb hc fuel p k c b hp hk hf hu
    obtain ⟨f, rfl⟩ : ∃ f, fuel = f + 1 := ⟨fuel - 1, by omega⟩
    have hg := hs.1
    have hid := (get_fits hg).2.1
    obtain ⟨u0, u1, u2⟩ := below_inner hb hc hu
    obtain ⟨v1, v2⟩ := common_below hb hc
    rw [checkRec]
    show (s.getNode h >>= _) = _
    rw [hg]
    simp only [ok_bind, Node.prefixLen!, Node.key!, critBitMask_ok hp, prefixMask_ok hp]
    rw [(assertThat_ok (u := ())).2 (by simp [u0]), ok_bind, (assertThat_ok (u := ())).2 (by rw [and_mask, u2]; simp), ok_bind,
      (assertThat_ok (u := ())).2 ((prefix_eq_iff hp hk hid).2 u1), ok_bind]
    rw [ihl hs.2.1 hb.2.2.2.1 hc.2.1 hb.1 hid (by omega) v1, ok_bind,
      ihr hs.2.2 hb.2.2.2.2 hc.2.2 hb.1 hid (by omega) v2]
    simp only [Tree.slots, List.length_cons, List.length_append]
    congr 1; omega

theorem checkRec_tree : ∀ {fuel h p k c c' : Nat} {b : Bool}, k < 2 ^ 128 → checkRec s.getNode fuel h p k b c = .ok c' →
    ∃ t : Tree, t.slot = h ∧ t.Stored s.getNode ∧ t.Bits ∧ t.Common ∧ p < 128 ∧ Below p k b t ∧ c' = c + t.slots.length := by
  intro fuel
  induction fuel with
  | zero => intro h p k c c' b _ hc; simp [checkRec] at hc
  | succ fuel ih =>
    intro h p k c c' b hk hc
    unfold checkRec at hc
    obtain ⟨n, hn, hc1⟩ := bind_ok hc
    clear hc
    obtain ⟨q, hq, hc2⟩ := bind_ok hc1
    clear hc1
    obtain ⟨_, ha0, hc3⟩ := bind_ok hc2
    clear hc2
    obtain ⟨key, hkey, hc4⟩ := bind_ok hc3
    clear hc3
    obtain ⟨mask, hmask, hc5⟩ := bind_ok hc4
    clear hc4
    obtain ⟨_, ha1, hc6⟩ := bind_ok hc5
    clear hc5
    obtain ⟨pm, hpm, hc7⟩ := bind_ok hc6
    clear hc6
    obtain ⟨_, ha2, hz⟩ := bind_ok hc7
    clear hc7
    have hp : p < 128 := by
      by_contra hp
      simp [critBitMask, hp] at hmask
    rw [critBitMask_ok hp] at hmask
    cases hmask
    rw [prefixMask_ok hp] at hpm
    cases hpm
    rw [assertThat_ok, and_mask, beq_iff_eq] at ha1
    rw [assertThat_ok, decide_eq_true_eq] at ha0
    rw [assertThat_ok] at ha2
    cases n with
    | leaf k0 cb qty =>
      obtain rfl : k0 = key := Except.ok.inj hkey
      have hk0 := (get_fits hn).1
      rw [prefix_eq_iff hp hk hk0] at ha2
      refine ⟨.leaf h ⟨k0, qty, cb⟩, rfl, hn, trivial, trivial, hp, ?_, ?_⟩
      · intro o ho
        simp only [Tree.orders, List.mem_singleton] at ho
        subst ho
        exact ⟨ha2.symm, by simpa using ha1.symm⟩
      · cases hz; rfl
    | inner q' k0 c0 c1 =>
      obtain rfl : k0 = key := Except.ok.inj hkey
      obtain rfl : q' = q := Except.ok.inj hq
      have hk0 := (get_fits hn).2.1
      rw [prefix_eq_iff hp hk hk0] at ha2
      obtain ⟨c2, e1, e2⟩ := bind_ok hz
      obtain ⟨l, l1, l2, l3, l4, l5, l6, l7⟩ := ih hk0 e1
      obtain ⟨r, r1, r2, r3, r4, r5, r6, r7⟩ := ih hk0 e2
      refine ⟨.inner h q' k0 l r, rfl, ⟨by rw [l1, r1]; exact hn, l2, r2⟩,
        ⟨l5, fun o ho => (l6 o ho).2, fun o ho => (r6 o ho).2, l3, r3⟩, ⟨?_, l4, r4⟩, hp, ?_, ?_⟩
      · intro o ho
        rcases List.mem_append.1 ho with ho | ho
        · exact (l6 o ho).1
        · exact (r6 o ho).1
      · have key : ∀ o : Order Bytes, Agree q' o.id k0 → Agree p o.id k ∧ o.id.testBit (127 - p) = b := by
          intro o ho
          refine ⟨(ho.mono (by omega)).trans ha2.symm, ?_⟩
          rw [ho (127 - p) (by omega)]
          simpa using ha1.symm
        intro o ho
        rcases List.mem_append.1 ho with ho | ho
        · exact key o (l6 o ho).1
        · exact key o (r6 o ho).1
      · rw [r7, l7]
        simp only [Tree.slots, List.length_cons, List.length_append]
        omega
    | uninitialized => simp [Node.key!] at hkey
    | free x => simp [Node.key!] at hkey
    | lastFree x => simp [Node.key!] at hkey

theorem checkFree_iff {get : Nat → Res Node} : ∀ {n head : Nat}, checkFree get n head = .ok () ↔
    ∃ free : List Nat, free.length = n ∧ Chain get head free := by
  intro n
  induction n with
  | zero =>
    intro head
    simp only [checkFree, true_iff]
    exact ⟨[], rfl, trivial⟩
  | succ n ih =>
    intro head
    cases n with
    | zero =>
      rw [checkFree]
      constructor
      · intro h
        obtain ⟨x, hx, h⟩ := bind_ok h
        cases x with
        | lastFree y => exact ⟨[head], rfl, rfl, y, hx⟩
        | _ => simp at h
      · rintro ⟨free, hl, hc⟩
        match free, hl with
        | [a], _ =>
          obtain ⟨rfl, y, hy⟩ := hc
          rw [hy]; rfl
    | succ n =>
      rw [checkFree]
      constructor
      · intro h
        obtain ⟨x, hx, h⟩ := bind_ok h
        cases x with
        | free y =>
          obtain ⟨free, hl, hc⟩ := ih.1 h
          match free, hl with
          | a :: free, hl =>
            have hya : y = a := by cases free <;> exact hc.1
            subst hya
            exact ⟨head :: y :: free, by simpa using hl, rfl, hx, hc⟩
        | _ => simp at h
      · rintro ⟨free, hl, hc⟩
        match free, hl with
        | a :: a' :: free, hl =>
          obtain ⟨rfl, h2, h3⟩ := hc
          rw [h2]
          exact ih.2 ⟨a' :: free, by simpa using hl, h3⟩

theorem get_total (s : Slab) (h : Nat) : (∃ n, s.getNode h = .ok n) ∨ s.getNode h = .error .panic := by
  unfold Slab.getNode Wasm.getNode
  simp only
  split
  · split
    · left; exact ⟨_, rfl⟩
    · right; rfl
  · right; rfl

/-- Where the check does not return, it fails an assertion. -/
theorem checkRec_total : ∀ {fuel h p k c : Nat} {b : Bool}, 129 ≤ fuel + p → 1 ≤ fuel →
    (∃ c', checkRec s.getNode fuel h p k b c = .ok c') ∨ checkRec s.getNode fuel h p k b c = .error .panic := by
  have hget := get_total s
  have hass : ∀ b, assertThat b = .ok () ∨ assertThat b = .error .panic := by
    intro b; cases b <;> simp [assertThat]
  intro fuel
  induction fuel with
  | zero => intro h p k c b _ h1; omega
  | succ fuel ih =>
    intro h p k c b hf _
    rw [checkRec]
    rcases hget h with ⟨n, hn⟩ | hn
    swap
    · right; rw [hn]; rfl
    rw [hn, ok_bind]
    cases n with
    | leaf key cb qty =>
      simp only [Node.prefixLen!, Node.key!, ok_bind]
      rcases hass (decide (128 > p)) with h0 | h0
      swap
      · right; rw [h0]; rfl
      rw [h0, ok_bind]
      have hp : p < 128 := by simpa using (assertThat_ok (u := ())).1 h0
      rw [critBitMask_ok hp, prefixMask_ok hp]
      simp only [ok_bind]
      rcases hass (b == !(key &&& 2 ^ (127 - p) == 0)) with h1 | h1
      swap
      · right; rw [h1]; rfl
      rw [h1, ok_bind]
      rcases hass (k &&& (((2 ^ 128 - (1 <<< (127 - p))) <<< 1) % 2 ^ 128) == key &&& (((2 ^ 128 - (1 <<< (127 - p))) <<< 1) % 2 ^ 128)) with h2 | h2
      · left; rw [h2]; exact ⟨_, rfl⟩
      · right; rw [h2]; rfl
    | inner q key c0 c1 =>
      simp only [Node.prefixLen!, Node.key!, ok_bind]
      rcases hass (decide (q > p)) with h0 | h0
      swap
      · right; rw [h0]; rfl
      rw [h0, ok_bind]
      have hq : p < q := by simpa using (assertThat_ok (u := ())).1 h0
      by_cases hp : p < 128
      swap
      · right
        have : critBitMask p = .error .panic := by simp [critBitMask, hp]
        rw [this]; rfl
      rw [critBitMask_ok hp, prefixMask_ok hp]
      simp only [ok_bind]
      rcases hass (b == !(key &&& 2 ^ (127 - p) == 0)) with h1 | h1
      swap
      · right; rw [h1]; rfl
      rw [h1, ok_bind]
      rcases hass (k &&& (((2 ^ 128 - (1 <<< (127 - p))) <<< 1) % 2 ^ 128) == key &&& (((2 ^ 128 - (1 <<< (127 - p))) <<< 1) % 2 ^ 128)) with h2 | h2
      swap
      · right; rw [h2]; rfl
      rw [h2, ok_bind]
      rcases ih (h := c0) (p := q) (k := key) (c := c + 1) (b := false) (by omega) (by omega) with ⟨d, hd⟩ | hd
      swap
      · right; rw [hd]; rfl
      rw [hd, ok_bind]
      exact ih (by omega) (by omega)
    | uninitialized => right; rfl
    | free x => right; rfl
    | lastFree x => right; rfl

/-! ### Slots -/

theorem slots_kind {get : Nat → Res Node} : ∀ {t : Tree}, t.Stored get → ∀ {x : Nat}, x ∈ t.slots →
    ∃ n p, get x = .ok n ∧ n.prefixLen! = .ok p := by
  intro t
  induction t with
  | leaf h o =>
    intro hs x hx
    simp only [Tree.slots, List.mem_singleton] at hx
    subst hx
    exact ⟨_, _, hs, rfl⟩
  | inner h p k l r ihl ihr =>
    intro hs x hx
    simp only [Tree.slots, List.mem_cons, List.mem_append] at hx
    rcases hx with rfl | hx | hx
    · exact ⟨_, _, hs.1, rfl⟩
    · exact ihl hs.2.1 hx
    · exact ihr hs.2.2 hx

theorem slots_below {get : Nat → Res Node} {p k : Nat} {b : Bool} : ∀ {t : Tree}, t.Stored get → t.Bits → t.Common → p < 128 →
    Below p k b t → ∀ {x : Nat}, x ∈ t.slots →
    ∃ n q kx, get x = .ok n ∧ n.prefixLen! = .ok q ∧ n.key! = .ok kx ∧ p < q ∧ kx.testBit (127 - p) = b := by
  intro t
  induction t with
  | leaf h o =>
    intro hs _ _ hp hu x hx
    simp only [Tree.slots, List.mem_singleton] at hx
    subst hx
    exact ⟨_, _, _, hs, rfl, rfl, hp, (hu o (by simp [Tree.orders])).2⟩
  | inner h q k' l r ihl ihr =>
    intro hs hb hc hp hu x hx
    obtain ⟨u1, u2⟩ := below_sub hu
    simp only [Tree.slots, List.mem_cons, List.mem_append] at hx
    rcases hx with rfl | hx | hx
    · obtain ⟨v1, _, v2⟩ := below_inner hb hc hu
      exact ⟨_, _, _, hs.1, rfl, rfl, v1, v2⟩
    · exact ihl hs.2.1 hb.2.2.2.1 hc.2.1 hp u1 hx
    · exact ihr hs.2.2 hb.2.2.2.2 hc.2.2 hp u2 hx

theorem tree_nodup {get : Nat → Res Node} : ∀ {t : Tree}, t.Stored get → t.Bits → t.Common → t.slots.Nodup := by
  intro t
  induction t with
  | leaf h o => intro _ _ _; simp [Tree.slots]
  | inner h p k l r ihl ihr =>
    intro hs hb hc
    obtain ⟨v1, v2⟩ := common_below hb hc
    have nl : ∀ {x}, x ∈ l.slots → _ := slots_below hs.2.1 hb.2.2.2.1 hc.2.1 hb.1 v1
    have nr : ∀ {x}, x ∈ r.slots → _ := slots_below hs.2.2 hb.2.2.2.2 hc.2.2 hb.1 v2
    simp only [Tree.slots]
    refine List.nodup_cons.2 ⟨?_, List.nodup_append.2 ⟨ihl hs.2.1 hb.2.2.2.1 hc.2.1, ihr hs.2.2 hb.2.2.2.2 hc.2.2, ?_⟩⟩
    · intro hx
      rcases List.mem_append.1 hx with hx | hx
      · obtain ⟨n, q, kx, h1, h2, -, h3, -⟩ := nl hx
        rw [hs.1] at h1; cases h1; cases h2; omega
      · obtain ⟨n, q, kx, h1, h2, -, h3, -⟩ := nr hx
        rw [hs.1] at h1; cases h1; cases h2; omega
    · rintro x hx y hy rfl
      obtain ⟨n, q, kx, h1, -, h2, -, h3⟩ := nl hx
      obtain ⟨n', q', kx', h1', -, h2', -, h3'⟩ := nr hy
      rw [h1] at h1'; cases h1'
      rw [h2] at h2'; cases h2'
      rw [h3] at h3'; cases h3'

theorem chain_kind {get : Nat → Res Node} : ∀ {l : List Nat} {head : Nat}, Chain get head l → ∀ {x : Nat}, x ∈ l →
    ∃ n, get x = .ok (.free n) ∨ get x = .ok (.lastFree n) := by
  intro l
  induction l with
  | nil => intro _ _ x hx; cases hx
  | cons a l ih =>
    intro head hc x hx
    cases l with
    | nil =>
      obtain ⟨_, n, hn⟩ := hc
      rw [List.mem_singleton.1 hx]
      exact ⟨n, .inr hn⟩
    | cons a' l =>
      obtain ⟨_, h2, h3⟩ := hc
      rcases List.mem_cons.1 hx with rfl | hx
      · exact ⟨a', .inl h2⟩
      · exact ih h3 hx

theorem chain_unique {get : Nat → Res Node} : ∀ {l l' : List Nat} {head : Nat}, Chain get head l → Chain get head l' → l ≠ [] →
    l' ≠ [] → l = l' := by
  intro l
  induction l with
  | nil => intro _ _ _ _ h _; exact absurd rfl h
  | cons a l ih =>
    intro l' head hc hc' _ hn
    cases l' with
    | nil => exact absurd rfl hn
    | cons b l' =>
      have ha : head = a := by cases l <;> exact hc.1
      have hb : head = b := by cases l' <;> exact hc'.1
      subst ha
      subst hb
      cases l with
      | nil =>
        obtain ⟨_, n, h1⟩ := hc
        cases l' with
        | nil => rfl
        | cons b' l' =>
          obtain ⟨_, h2, _⟩ := hc'
          rw [h1] at h2; cases h2
      | cons a' l =>
        obtain ⟨_, h1, h2⟩ := hc
        cases l' with
        | nil =>
          obtain ⟨_, n, h1'⟩ := hc'
          rw [h1] at h1'; cases h1'
        | cons b' l' =>
          obtain ⟨_, h1', h2'⟩ := hc'
          rw [h1] at h1'; cases h1'
          rw [ih h2 h2' (by simp) (by simp)]

/-- A chain can be entered at any of its slots. -/
theorem chain_suffix {get : Nat → Res Node} : ∀ {l : List Nat} {head x : Nat}, Chain get head l → x ∈ l →
    ∃ l', l' ≠ [] ∧ Chain get x l' ∧ l'.length ≤ l.length := by
  intro l
  induction l with
  | nil => intro _ x _ hx; cases hx
  | cons a l ih =>
    intro head x hc hx
    rcases List.mem_cons.1 hx with rfl | hx
    · have ha : head = x := by cases l <;> exact hc.1
      subst ha
      exact ⟨_, by simp, hc, Nat.le_refl _⟩
    · cases l with
      | nil => cases hx
      | cons a' l =>
        obtain ⟨l', h1, h2, h3⟩ := ih hc.2.2 hx
        exact ⟨l', h1, h2, by simp at h3 ⊢; omega⟩

theorem chain_nodup {get : Nat → Res Node} : ∀ {l : List Nat} {head : Nat}, Chain get head l → l.Nodup := by
  intro l
  induction l with
  | nil => intro _ _; exact List.nodup_nil
  | cons a l ih =>
    intro head hc
    have ha : head = a := by cases l <;> exact hc.1
    subst ha
    cases l with
    | nil => simp
    | cons a' l =>
      refine List.nodup_cons.2 ⟨fun hx => ?_, ih hc.2.2⟩
      obtain ⟨l', h1, h2, h3⟩ := chain_suffix hc.2.2 hx
      have := chain_unique hc h2 (by simp) h1
      rw [← this] at h3
      simp at h3

theorem sorted_of : ∀ {t : Tree}, t.Bits → t.Common → t.orders.Pairwise (fun a b => a.id < b.id) := by
  intro t
  induction t with
  | leaf h o => intro _ _; simp [Tree.orders]
  | inner h p k l r ihl ihr =>
    intro hb hc
    obtain ⟨v1, v2⟩ := common_below hb hc
    refine List.pairwise_append.2 ⟨ihl hb.2.2.2.1 hc.2.1, ihr hb.2.2.2.2 hc.2.2, fun a ha b hb' => ?_⟩
    refine Nat.lt_of_testBit (127 - p) (v1 a ha).2 (v2 b hb').2 (fun j hj => ?_)
    have hp := hb.1
    rw [(v1 a ha).1 j (by omega), (v2 b hb').1 j (by omega)]

theorem find_tree {k : Nat} (hk : k < 2 ^ 128) : ∀ {t : Tree}, t.Stored s.getNode → t.Bits → t.Common →
    ∃ F r, (∀ fuel, F ≤ fuel → findLoop s.getNode k fuel t.slot = .ok r) ∧
      ∀ slot, r = some slot ↔ slot ∈ t.leafSlots ∧ ∃ o ∈ t.orders, o.id = k ∧ s.getNode slot = .ok (.leaf o.id o.cb o.qty) := by
  intro t
  induction t with
  | leaf h o =>
    intro hs _ _
    have hg : s.getNode h = .ok (.leaf o.id o.cb o.qty) := hs
    by_cases hko : k = o.id
    · refine ⟨1, some h, fun fuel hf => ?_, fun slot => ?_⟩
      · obtain ⟨f, rfl⟩ : ∃ f, fuel = f + 1 := ⟨fuel - 1, by omega⟩
        rw [findLoop]
        show (s.getNode h >>= _) = _
        rw [hg]
        simp only [ok_bind, Node.prefixLen!, Node.key!]
        rw [hko, Nat.xor_self]
        simp [leadingZeros, Tree.slot]
      · simp only [Tree.leafSlots, Tree.orders, List.mem_singleton]
        constructor
        · intro e
          obtain rfl := Option.some.inj e
          exact ⟨rfl, o, rfl, hko.symm, hg⟩
        · rintro ⟨rfl, _⟩; rfl
    · refine ⟨1, none, fun fuel hf => ?_, fun slot => ?_⟩
      · obtain ⟨f, rfl⟩ : ∃ f, fuel = f + 1 := ⟨fuel - 1, by omega⟩
        rw [findLoop]
        show (s.getNode h >>= _) = _
        rw [hg]
        simp only [ok_bind, Node.prefixLen!, Node.key!]
        rw [if_pos (lz_lt hko)]
      · simp only [Tree.leafSlots, Tree.orders, List.mem_singleton]
        constructor
        · intro e; cases e
        · rintro ⟨_, o', rfl, e, _⟩; exact absurd e.symm hko
  | inner h p kk l r ihl ihr =>
    intro hs hb hc
    have hkk := (get_fits hs.1).2.1
    obtain ⟨v1, v2⟩ := common_below hb hc
    obtain ⟨F1, r1, a1, b1⟩ := ihl hs.2.1 hb.2.2.2.1 hc.2.1
    obtain ⟨F2, r2, a2, b2⟩ := ihr hs.2.2 hb.2.2.2.2 hc.2.2
    have hp := hb.1
    -- the slot of a leaf holds one order only
    have whose : ∀ {c : Tree} {slot : Nat}, c.Stored s.getNode → slot ∈ c.leafSlots →
        ∃ o ∈ c.orders, s.getNode slot = .ok (.leaf o.id o.cb o.qty) := by
      intro c
      induction c with
      | leaf h' o' =>
        intro slot hs' hx
        simp only [Tree.leafSlots, List.mem_singleton] at hx
        subst hx
        exact ⟨o', by simp [Tree.orders], hs'⟩
      | inner h' p' k' l' r' il ir =>
        intro slot hs' hx
        simp only [Tree.leafSlots, List.mem_append] at hx
        rcases hx with hx | hx
        · obtain ⟨o', h1, h2⟩ := il hs'.2.1 hx; exact ⟨o', by simp [Tree.orders, h1], h2⟩
        · obtain ⟨o', h1, h2⟩ := ir hs'.2.2 hx; exact ⟨o', by simp [Tree.orders, h1], h2⟩
    have step : ∀ fuel, findLoop s.getNode k (fuel + 1) h = if leadingZeros (k ^^^ kk) < p then .ok none
        else findLoop s.getNode k fuel (if k.testBit (127 - p) then r.slot else l.slot) := by
      intro fuel
      rw [findLoop, hs.1]
      simp only [ok_bind, Node.prefixLen!, Node.key!, walkDown]
      rw [if_pos hp]
      rfl
    by_cases hz : leadingZeros (k ^^^ kk) < p
    · refine ⟨1, none, fun fuel hf => ?_, fun slot => ⟨fun e => (by cases e), ?_⟩⟩
      · obtain ⟨f, rfl⟩ : ∃ f, fuel = f + 1 := ⟨fuel - 1, by omega⟩
        show findLoop s.getNode k (f + 1) h = _
        rw [step, if_pos hz]
      · rintro ⟨_, o, ho, rfl, _⟩
        have : p ≤ leadingZeros (o.id ^^^ kk) := (lz_ge_iff hk hkk (by omega)).2 (hc.1 o ho)
        omega
    · cases hbit : k.testBit (127 - p) with
      | false =>
        refine ⟨F1 + 1, r1, fun fuel hf => ?_, fun slot => (b1 slot).trans ⟨?_, ?_⟩⟩
        · obtain ⟨f, rfl⟩ : ∃ f, fuel = f + 1 := ⟨fuel - 1, by omega⟩
          show findLoop s.getNode k (f + 1) h = _
          rw [step, if_neg hz, hbit]
          exact a1 f (by omega)
        · rintro ⟨x1, o, x2, x3⟩
          exact ⟨by simp [Tree.leafSlots, x1], o, by simp [Tree.orders, x2], x3⟩
        · rintro ⟨x1, o, x2, x3, x4⟩
          have hol : o ∈ l.orders := by
            rcases List.mem_append.1 x2 with x2 | x2
            · exact x2
            · have := (v2 o x2).2
              rw [x3, hbit] at this; cases this
          simp only [Tree.leafSlots, List.mem_append] at x1
          rcases x1 with x1 | x1
          · exact ⟨x1, o, hol, x3, x4⟩
          · obtain ⟨o', y1, y2⟩ := whose hs.2.2 x1
            have e := (v2 o' y1).2
            rw [x4] at y2
            have : o.id = o'.id := by injection y2 with y2; injection y2
            rw [← this, x3, hbit] at e; cases e
      | true =>
        refine ⟨F2 + 1, r2, fun fuel hf => ?_, fun slot => (b2 slot).trans ⟨?_, ?_⟩⟩
        · obtain ⟨f, rfl⟩ : ∃ f, fuel = f + 1 := ⟨fuel - 1, by omega⟩
          show findLoop s.getNode k (f + 1) h = _
          rw [step, if_neg hz, hbit]
          exact a2 f (by omega)
        · rintro ⟨x1, o, x2, x3⟩
          exact ⟨by simp [Tree.leafSlots, x1], o, by simp [Tree.orders, x2], x3⟩
        · rintro ⟨x1, o, x2, x3, x4⟩
          have hol : o ∈ r.orders := by
            rcases List.mem_append.1 x2 with x2 | x2
            · have := (v1 o x2).2
              rw [x3, hbit] at this; cases this
            · exact x2
          simp only [Tree.leafSlots, List.mem_append] at x1
          rcases x1 with x1 | x1
          · obtain ⟨o', y1, y2⟩ := whose hs.2.1 x1
            have e := (v1 o' y1).2
            rw [x4] at y2
            have : o.id = o'.id := by injection y2 with y2; injection y2
            rw [← this, x3, hbit] at e; cases e
          · exact ⟨x1, o, hol, x3, x4⟩

end AOB.Wasm
