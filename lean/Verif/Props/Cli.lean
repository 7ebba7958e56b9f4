import Verif.Proofs.Cli
/-!
# C81–C83: the command line

What a command sends is decided by what the arguments mean (`Verif/Spec/Cli.lean`), for every argument list.  `R` are the SDK's
readers for coins, decimals and integers, `u` the sender, `d` the value of `--order-lifespan`.
-/
namespace Verif.Props
open Verif Verif.Dex Verif.Amm Verif.Spec Verif.Cli

/-! ## C81: a transaction command sends exactly the message its arguments spell -/

/-- Any number below 2^64, written in decimal, is a numeral for that number and no other. -/
theorem C81_numbers {n : Nat} (h : n < 2 ^ 64) : Numeral (Keys.digits n) n ∧ ∀ m, Numeral (Keys.digits n) m → m = n :=
  ⟨numeral_digits h, fun _ hm => numeral_unique hm (numeral_digits h)⟩

theorem C81_create_pair {R : Readers} {u : Nat} {args : List Text} {op : Op} :
    Cli.createPair R u args = .sends op ↔ ∃ base quote, args = [base, quote] ∧ op = .createPair ⟨u, R.denom base, R.denom quote⟩ := by
  unfold Cli.createPair
  rw [exactArgs_sends, len2]
  constructor
  · rintro ⟨⟨a, b, rfl⟩, h⟩
    simp only [arg_zero, arg_succ, Outcome.sends.injEq] at h
    exact ⟨a, b, rfl, h.symm⟩
  · rintro ⟨a, b, rfl, rfl⟩
    exact ⟨⟨a, b, rfl⟩, rfl⟩

theorem C81_create_pool {R : Readers} {u : Nat} {args : List Text} {op : Op} :
    Cli.createPool R u args = .sends op ↔
      ∃ t c pairId coins, args = [t, c] ∧ Numeral t pairId ∧ R.coins c = some coins ∧ op = .createPool ⟨u, pairId, coins⟩ := by
  unfold Cli.createPool
  rw [exactArgs_sends, len2]
  constructor
  · rintro ⟨⟨a, b, rfl⟩, h⟩
    simp only [arg_zero, arg_succ, need_sends, Outcome.sends.injEq, parseUint_iff] at h
    obtain ⟨n, h1, c, h2, rfl⟩ := h
    exact ⟨a, b, n, c, rfl, h1, h2, rfl⟩
  · rintro ⟨a, b, n, c, rfl, h1, h2, rfl⟩
    refine ⟨⟨a, b, rfl⟩, ?_⟩
    simp only [arg_zero, arg_succ, need_sends, Outcome.sends.injEq, parseUint_iff]
    exact ⟨n, h1, c, h2, rfl⟩

theorem C81_create_ranged_pool {R : Readers} {u : Nat} {args : List Text} {op : Op} :
    Cli.createRangedPool R u args = .sends op ↔
      ∃ t c lo hi ini pairId coins minPrice maxPrice initialPrice, args = [t, c, lo, hi, ini] ∧ Numeral t pairId ∧
        R.coins c = some coins ∧ R.dec lo = some minPrice ∧ R.dec hi = some maxPrice ∧ R.dec ini = some initialPrice ∧
        op = .createRangedPool ⟨u, pairId, coins, minPrice, maxPrice, initialPrice⟩ := by
  unfold Cli.createRangedPool
  rw [exactArgs_sends, len5]
  constructor
  · rintro ⟨⟨a0, a1, a2, a3, a4, rfl⟩, h⟩
    simp only [arg_zero, arg_succ, need_sends, Outcome.sends.injEq, parseUint_iff] at h
    obtain ⟨n, h0, c, h1, p, h2, q, h3, r, h4, rfl⟩ := h
    exact ⟨a0, a1, a2, a3, a4, n, c, p, q, r, rfl, h0, h1, h2, h3, h4, rfl⟩
  · rintro ⟨a0, a1, a2, a3, a4, n, c, p, q, r, rfl, h0, h1, h2, h3, h4, rfl⟩
    refine ⟨⟨a0, a1, a2, a3, a4, rfl⟩, ?_⟩
    simp only [arg_zero, arg_succ, need_sends, Outcome.sends.injEq, parseUint_iff]
    exact ⟨n, h0, c, h1, p, h2, q, h3, r, h4, rfl⟩

theorem C81_deposit {R : Readers} {u : Nat} {args : List Text} {op : Op} :
    Cli.deposit R u args = .sends op ↔
      ∃ t c poolId coins, args = [t, c] ∧ Numeral t poolId ∧ R.coins c = some coins ∧ op = .deposit ⟨u, poolId, coins⟩ := by
  unfold Cli.deposit
  rw [exactArgs_sends, len2]
  constructor
  · rintro ⟨⟨a, b, rfl⟩, h⟩
    simp only [arg_zero, arg_succ, need_sends, Outcome.sends.injEq, parseUint_iff] at h
    obtain ⟨n, h1, c, h2, rfl⟩ := h
    exact ⟨a, b, n, c, rfl, h1, h2, rfl⟩
  · rintro ⟨a, b, n, c, rfl, h1, h2, rfl⟩
    refine ⟨⟨a, b, rfl⟩, ?_⟩
    simp only [arg_zero, arg_succ, need_sends, Outcome.sends.injEq, parseUint_iff]
    exact ⟨n, h1, c, h2, rfl⟩

theorem C81_withdraw {R : Readers} {u : Nat} {args : List Text} {op : Op} :
    Cli.withdraw R u args = .sends op ↔
      ∃ t c poolId coin, args = [t, c] ∧ Numeral t poolId ∧ R.coin c = some coin ∧ op = .withdraw ⟨u, poolId, coin⟩ := by
  unfold Cli.withdraw
  rw [exactArgs_sends, len2]
  constructor
  · rintro ⟨⟨a, b, rfl⟩, h⟩
    simp only [arg_zero, arg_succ, need_sends, Outcome.sends.injEq, parseUint_iff] at h
    obtain ⟨n, h1, c, h2, rfl⟩ := h
    exact ⟨a, b, n, c, rfl, h1, h2, rfl⟩
  · rintro ⟨a, b, n, c, rfl, h1, h2, rfl⟩
    refine ⟨⟨a, b, rfl⟩, ?_⟩
    simp only [arg_zero, arg_succ, need_sends, Outcome.sends.injEq, parseUint_iff]
    exact ⟨n, h1, c, h2, rfl⟩

/-- What the six arguments of `limit-order` and `mm-order` spell. -/
private theorem order_args {R : Readers} {u : Nat} {d : Int} {args : List Text} {mk : MsgLimitOrder → Op} {op : Op} :
    orderArgs R u d args (fun m => .sends (mk m)) = .sends op ↔
      ∃ t w o q p a pairId dir offer price amt, args = [t, w, o, q, p, a] ∧ Numeral t pairId ∧ Direction w dir ∧
        R.coin o = some offer ∧ R.denomValid q = true ∧ R.dec p = some price ∧ R.int a = some amt ∧
        op = mk ⟨u, pairId, dir, offer, R.denom q, price, amt, d⟩ := by
  unfold orderArgs
  rw [exactArgs_sends, len6]
  constructor
  · rintro ⟨⟨a0, a1, a2, a3, a4, a5, rfl⟩, h⟩
    simp only [arg_zero, arg_succ, need_sends, parseUint_iff, direction_iff] at h
    obtain ⟨n, h0, dir, h1, c, h2, h⟩ := h
    by_cases hd : R.denomValid a3 = true
    · rw [if_neg (by simp [hd])] at h
      simp only [need_sends, Outcome.sends.injEq] at h
      obtain ⟨p, h4, a, h5, rfl⟩ := h
      exact ⟨a0, a1, a2, a3, a4, a5, n, dir, c, p, a, rfl, h0, h1, h2, hd, h4, h5, rfl⟩
    · rw [if_pos (by simpa using hd)] at h
      cases h
  · rintro ⟨a0, a1, a2, a3, a4, a5, n, dir, c, p, a, rfl, h0, h1, h2, hd, h4, h5, rfl⟩
    refine ⟨⟨a0, a1, a2, a3, a4, a5, rfl⟩, ?_⟩
    simp only [arg_zero, arg_succ, need_sends, parseUint_iff, direction_iff]
    refine ⟨n, h0, dir, h1, c, h2, ?_⟩
    rw [if_neg (by simp [hd])]
    simp only [need_sends]
    exact ⟨p, h4, a, h5, rfl⟩

theorem C81_limit_order {R : Readers} {u : Nat} {d : Int} {args : List Text} {op : Op} :
    Cli.limitOrder R u d args = .sends op ↔
      ∃ t w o q p a pairId dir offer price amt, args = [t, w, o, q, p, a] ∧ Numeral t pairId ∧ Direction w dir ∧
        R.coin o = some offer ∧ R.denomValid q = true ∧ R.dec p = some price ∧ R.int a = some amt ∧
        op = .limitOrder ⟨u, pairId, dir, offer, R.denom q, price, amt, d⟩ :=
  order_args (mk := .limitOrder)

theorem C81_mm_order {R : Readers} {u : Nat} {d : Int} {args : List Text} {op : Op} :
    Cli.mmOrder R u d args = .sends op ↔
      ∃ t w o q p a pairId dir offer price amt, args = [t, w, o, q, p, a] ∧ Numeral t pairId ∧ Direction w dir ∧
        R.coin o = some offer ∧ R.denomValid q = true ∧ R.dec p = some price ∧ R.int a = some amt ∧
        op = .mmOrder ⟨u, pairId, dir, offer, R.denom q, price, amt, d⟩ :=
  order_args (mk := .mmOrder)

theorem C81_market_order {R : Readers} {u : Nat} {d : Int} {args : List Text} {op : Op} :
    Cli.marketOrder R u d args = .sends op ↔
      ∃ t w o q a pairId dir offer amt, args = [t, w, o, q, a] ∧ Numeral t pairId ∧ Direction w dir ∧
        R.coin o = some offer ∧ R.denomValid q = true ∧ R.int a = some amt ∧
        op = .marketOrder ⟨u, pairId, dir, offer, R.denom q, amt, d⟩ := by
  unfold Cli.marketOrder
  rw [exactArgs_sends, len5]
  constructor
  · rintro ⟨⟨a0, a1, a2, a3, a4, rfl⟩, h⟩
    simp only [arg_zero, arg_succ, need_sends, parseUint_iff, direction_iff] at h
    obtain ⟨n, h0, dir, h1, c, h2, h⟩ := h
    by_cases hd : R.denomValid a3 = true
    · rw [if_neg (by simp [hd])] at h
      simp only [need_sends, Outcome.sends.injEq] at h
      obtain ⟨a, h5, rfl⟩ := h
      exact ⟨a0, a1, a2, a3, a4, n, dir, c, a, rfl, h0, h1, h2, hd, h5, rfl⟩
    · rw [if_pos (by simpa using hd)] at h
      cases h
  · rintro ⟨a0, a1, a2, a3, a4, n, dir, c, a, rfl, h0, h1, h2, hd, h5, rfl⟩
    refine ⟨⟨a0, a1, a2, a3, a4, rfl⟩, ?_⟩
    simp only [arg_zero, arg_succ, need_sends, parseUint_iff, direction_iff]
    refine ⟨n, h0, dir, h1, c, h2, ?_⟩
    rw [if_neg (by simp [hd])]
    simp only [need_sends]
    exact ⟨a, h5, rfl⟩

theorem C81_cancel_order {u : Nat} {args : List Text} {op : Op} :
    Cli.cancelOrder u args = .sends op ↔
      ∃ t s pairId orderId, args = [t, s] ∧ Numeral t pairId ∧ Numeral s orderId ∧ op = .cancelOrder ⟨u, pairId, orderId⟩ := by
  unfold Cli.cancelOrder
  rw [exactArgs_sends, len2]
  constructor
  · rintro ⟨⟨a, b, rfl⟩, h⟩
    simp only [arg_zero, arg_succ, need_sends, Outcome.sends.injEq, parseUint_iff] at h
    obtain ⟨n, h1, c, h2, rfl⟩ := h
    exact ⟨a, b, n, c, rfl, h1, h2, rfl⟩
  · rintro ⟨a, b, n, c, rfl, h1, h2, rfl⟩
    refine ⟨⟨a, b, rfl⟩, ?_⟩
    simp only [arg_zero, arg_succ, need_sends, Outcome.sends.injEq, parseUint_iff]
    exact ⟨n, h1, c, h2, rfl⟩

/-- None of these commands panics, whatever is typed. -/
theorem C81_no_panic (R : Readers) (u : Nat) (d : Int) (args : List Text) :
    Cli.createPair R u args ≠ .panics ∧ Cli.createPool R u args ≠ .panics ∧ Cli.createRangedPool R u args ≠ .panics ∧
      Cli.deposit R u args ≠ .panics ∧ Cli.withdraw R u args ≠ .panics ∧ Cli.limitOrder R u d args ≠ .panics ∧
      Cli.mmOrder R u d args ≠ .panics ∧ Cli.marketOrder R u d args ≠ .panics ∧ Cli.cancelOrder u args ≠ .panics := by
  refine ⟨?_, ?_, ?_, ?_, ?_, ?_, ?_, ?_, ?_⟩
  · exact exact_safe fun h => by
      obtain ⟨a, b, rfl⟩ := len2.1 h
      simp [Cli.arg_zero, Cli.arg_succ]
  · exact exact_safe fun h => by
      obtain ⟨a, b, rfl⟩ := len2.1 h
      exact need_safe fun _ _ => need_safe fun _ _ => by simp
  · exact exact_safe fun h => by
      obtain ⟨a, b, c, d, e, rfl⟩ := len5.1 h
      exact need_safe fun _ _ => need_safe fun _ _ => need_safe fun _ _ => need_safe fun _ _ => need_safe fun _ _ => by simp
  · exact exact_safe fun h => by
      obtain ⟨a, b, rfl⟩ := len2.1 h
      exact need_safe fun _ _ => need_safe fun _ _ => by simp
  · exact exact_safe fun h => by
      obtain ⟨a, b, rfl⟩ := len2.1 h
      exact need_safe fun _ _ => need_safe fun _ _ => by simp
  · exact order_safe fun _ => by simp
  · exact order_safe fun _ => by simp
  · exact exact_safe fun h => by
      obtain ⟨a, b, c, d, e, rfl⟩ := len5.1 h
      exact need_safe fun _ _ => need_safe fun _ _ => need_safe fun _ _ => if_safe (need_safe fun _ _ => by simp)
  · exact exact_safe fun h => by
      obtain ⟨a, b, rfl⟩ := len2.1 h
      exact need_safe fun _ _ => need_safe fun _ _ => by simp

/-! ## C82: cancelling all orders

The command accepts no argument ("cancel-all-orders --from mykey" is one of its documented examples) or one. -/

/-- With an argument, the command sends the ids that are typed. -/
theorem C82_cancel_all_partial {u : Nat} {t : Text} {op : Op} :
    Cli.cancelAllOrders u [t] = .sends op ↔ ∃ pairIds, Numerals t pairIds ∧ op = .cancelAllOrders ⟨u, pairIds⟩ := by
  unfold Cli.cancelAllOrders
  rw [maximumArgs_sends]
  simp only [List.length_singleton, le_refl, true_and, arg_zero, need_sends, numerals_iff, Outcome.sends.injEq]
  constructor
  · rintro ⟨n, h, rfl⟩; exact ⟨n, h, rfl⟩
  · rintro ⟨n, h, rfl⟩; exact ⟨n, h, rfl⟩

/-- Without an argument the command panics, for every sender. -/
theorem C82_no_argument_panics (u : Nat) : Cli.cancelAllOrders u [] = .panics := rfl

/-- So the message that cancels the orders in every pair (an empty list of pair ids) cannot be sent with this command. -/
theorem C82_every_pair_unreachable (u v : Nat) (args : List Text) : Cli.cancelAllOrders u args ≠ .sends (.cancelAllOrders ⟨v, []⟩) := by
  intro h
  have hl := h
  unfold Cli.cancelAllOrders at hl
  rw [maximumArgs_sends] at hl
  match args, hl.1 with
  | [], _ => exact absurd h (by rw [C82_no_argument_panics]; simp)
  | [t], _ =>
    obtain ⟨ids, ⟨ts, hne, -, hf⟩, e⟩ := C82_cancel_all_partial.1 h
    simp only [Op.cancelAllOrders.injEq, MsgCancelAllOrders.mk.injEq] at e
    rw [← e.2] at hf
    cases hf
    exact hne rfl

/-! ## C83: a query command asks for exactly what its arguments spell -/

theorem C83_pair_partial {args : List Text} {r : Request} :
    queryPair args = .sends r ↔ ∃ t id, args = [t] ∧ Numeral t id ∧ r = .pair id := by
  unfold queryPair
  exact one_number

theorem C83_deposit_requests_partial {args : List Text} {r : Request} :
    queryDepositRequests args = .sends r ↔ ∃ t id, args = [t] ∧ Numeral t id ∧ r = .depositRequests id := by
  unfold queryDepositRequests
  exact one_number

theorem C83_withdraw_requests_partial {args : List Text} {r : Request} :
    queryWithdrawRequests args = .sends r ↔ ∃ t id, args = [t] ∧ Numeral t id ∧ r = .withdrawRequests id := by
  unfold queryWithdrawRequests
  exact one_number

theorem C83_order_partial {args : List Text} {r : Request} :
    queryOrder args = .sends r ↔ ∃ t s pairId id, args = [t, s] ∧ Numeral t pairId ∧ Numeral s id ∧ r = .order pairId id := by
  unfold queryOrder
  rw [exactArgs_sends, len2]
  constructor
  · rintro ⟨⟨a, b, rfl⟩, h⟩
    simp only [arg_zero, arg_succ, need_sends, Outcome.sends.injEq, parseUint_iff] at h
    obtain ⟨n, h1, c, h2, rfl⟩ := h
    exact ⟨a, b, n, c, rfl, h1, h2, rfl⟩
  · rintro ⟨a, b, n, c, rfl, h1, h2, rfl⟩
    refine ⟨⟨a, b, rfl⟩, ?_⟩
    simp only [arg_zero, arg_succ, need_sends, Outcome.sends.injEq, parseUint_iff]
    exact ⟨n, h1, c, h2, rfl⟩

theorem C83_order_books_partial {n : Nat} {args : List Text} {r : Request} :
    queryOrderBooks n args = .sends r ↔ ∃ t ids, args = [t] ∧ Numerals t ids ∧ r = .orderBooks ids n := by
  unfold queryOrderBooks
  rw [exactArgs_sends, len1]
  constructor
  · rintro ⟨⟨a, rfl⟩, h⟩
    simp only [arg_zero, need_sends, numerals_iff, Outcome.sends.injEq] at h
    obtain ⟨ids, h1, rfl⟩ := h
    exact ⟨a, ids, rfl, h1, rfl⟩
  · rintro ⟨a, ids, rfl, h1, rfl⟩
    refine ⟨⟨a, rfl⟩, ?_⟩
    simp only [arg_zero, need_sends, numerals_iff, Outcome.sends.injEq]
    exact ⟨ids, h1, rfl⟩

theorem C83_params_pairs_partial {denoms args : List Text} {r : Request} :
    (queryParams args = .sends r ↔ args = [] ∧ r = .params) ∧
      (queryPairs denoms args = .sends r ↔ args = [] ∧ r = .pairs denoms) := by
  unfold queryParams queryPairs
  rw [exactArgs_sends, exactArgs_sends, len0]
  simp only [Outcome.sends.injEq]
  exact ⟨⟨fun h => ⟨h.1, h.2.symm⟩, fun h => ⟨h.1, h.2.symm⟩⟩, ⟨fun h => ⟨h.1, h.2.symm⟩, fun h => ⟨h.1, h.2.symm⟩⟩⟩

/-- `pools`: the pair is the one of `--pair-id`, or 0 (any pair) if the flag is empty; `--disabled` must be empty or a Boolean. -/
theorem C83_pools_partial {p d : Text} {args : List Text} {r : Request} :
    queryPools p d args = .sends r ↔
      args = [] ∧ (d = [] ∨ ∃ b, parseBool d = some b) ∧ ∃ id, (p = [] ∧ id = 0 ∨ p ≠ [] ∧ Numeral p id) ∧ r = .pools id d := by
  unfold queryPools
  rw [exactArgs_sends, len0, need_sends]
  simp only [flag_iff]
  have hb : (d ≠ [] ∧ parseBool d = none) ↔ ¬ (d = [] ∨ ∃ b, parseBool d = some b) := by
    cases parseBool d <;> simp
  constructor
  · rintro ⟨h, id, hid, h2⟩
    by_cases hc : d ≠ [] ∧ parseBool d = none
    · rw [if_pos hc] at h2; cases h2
    · rw [if_neg hc] at h2
      rw [hb, not_not] at hc
      cases h2
      exact ⟨h, hc, id, hid, rfl⟩
  · rintro ⟨h, hc, id, hid, rfl⟩
    exact ⟨h, id, hid, by rw [if_neg (by rw [hb, not_not]; exact hc)]⟩

/-- `pool`: exactly one of the pool id, the pool coin denom and the reserve address must be given, and that one is asked for. -/
theorem C83_pool_partial {denom addr : Text} {args : List Text} {r : Request} :
    queryPool denom addr args = .sends r ↔
      (∃ t id, args = [t] ∧ denom = [] ∧ addr = [] ∧ Numeral t id ∧ r = .pool id) ∨
      (args = [] ∧ denom ≠ [] ∧ addr = [] ∧ r = .poolByPoolCoinDenom denom) ∨
      (args = [] ∧ denom = [] ∧ addr ≠ [] ∧ r = .poolByReserveAddress addr) := by
  unfold queryPool
  rw [maximumArgs_sends]
  match args with
  | [] =>
    cases denom <;> cases addr <;> simp [poolRequest, excConditions, eq_comm]
  | [t] =>
    rw [if_pos (by simp), arg_zero, need_sends]
    simp only [parseUint_iff]
    cases denom <;> cases addr <;> simp [poolRequest, excConditions, eq_comm]
  | _ :: _ :: _ => simp

/-- `orders`: the orders of the orderer, in the pair of `--pair-id` or in all pairs; without an orderer a pair must be given. -/
theorem C83_orders_partial {p : Text} {args : List Text} {r : Request} :
    queryOrders p args = .sends r ↔
      (∃ id, args = [] ∧ p ≠ [] ∧ Numeral p id ∧ id ≠ 0 ∧ r = .orders id) ∨
      (∃ o id, args = [o] ∧ (p = [] ∧ id = 0 ∨ p ≠ [] ∧ Numeral p id) ∧ r = .ordersByOrderer o id) := by
  unfold queryOrders
  rw [maximumArgs_sends, need_sends]
  simp only [flag_iff]
  match args with
  | [] =>
    constructor
    · rintro ⟨-, id, hid, h⟩
      by_cases h0 : id = 0
      · simp [h0] at h
      · simp only [h0, if_false, Outcome.sends.injEq] at h
        rcases hid with ⟨-, e⟩ | ⟨hp, hn⟩
        · exact absurd e h0
        · exact Or.inl ⟨id, rfl, hp, hn, h0, h.symm⟩
    · rintro (⟨id, -, hp, hn, h0, rfl⟩ | ⟨o, id, h, -⟩)
      · exact ⟨by simp, id, Or.inr ⟨hp, hn⟩, by simp [h0]⟩
      · cases h
  | [o] =>
    constructor
    · rintro ⟨-, id, hid, h⟩
      cases h
      exact Or.inr ⟨o, id, rfl, hid, rfl⟩
    · rintro (⟨id, h, -⟩ | ⟨o', id, h, hid, rfl⟩)
      · cases h
      · cases h
        exact ⟨by simp, id, hid, rfl⟩
  | _ :: _ :: _ => simp

/-- What `deposit-request` and `withdraw-request` ask for: the request with the *pool's* number, whatever the second argument is. -/
theorem C83_second_argument_ignored {t s r : Text} :
    queryDepositRequest [t, s] = queryDepositRequest [t, r] ∧ queryWithdrawRequest [t, s] = queryWithdrawRequest [t, r] := ⟨rfl, rfl⟩

/-- They ask for the right request only when its id happens to equal the id of the pool. -/
theorem C83_request_partial {t s : Text} {poolId id : Nat} (ht : Numeral t poolId) :
    (queryDepositRequest [t, s] = .sends (.depositRequest poolId id) ↔ id = poolId) ∧
      (queryWithdrawRequest [t, s] = .sends (.withdrawRequest poolId id) ↔ id = poolId) := by
  have h := parseUint_iff.2 ht
  constructor
  · unfold queryDepositRequest
    rw [exactArgs_sends]
    simp [arg_zero, h, need, eq_comm]
  · unfold queryWithdrawRequest
    rw [exactArgs_sends]
    simp [arg_zero, h, need, eq_comm]

/-- So for every pool and every request id other than the pool's, typing both numbers asks for another request. -/
theorem C83_wrong_request {poolId id : Nat} (hp : poolId < 2 ^ 64) (h : id ≠ poolId) :
    queryDepositRequest [Keys.digits poolId, Keys.digits id] = .sends (.depositRequest poolId poolId) ∧
      queryDepositRequest [Keys.digits poolId, Keys.digits id] ≠ .sends (.depositRequest poolId id) ∧
      queryWithdrawRequest [Keys.digits poolId, Keys.digits id] = .sends (.withdrawRequest poolId poolId) ∧
      queryWithdrawRequest [Keys.digits poolId, Keys.digits id] ≠ .sends (.withdrawRequest poolId id) :=
  ⟨(C83_request_partial (numeral_digits hp)).1.2 rfl, fun e => h ((C83_request_partial (numeral_digits hp)).1.1 e),
    (C83_request_partial (numeral_digits hp)).2.2 rfl, fun e => h ((C83_request_partial (numeral_digits hp)).2.1 e)⟩

/-- No query command panics. -/
theorem C83_no_panic (denom addr p d : Text) (denoms args : List Text) (n : Nat) :
    queryParams args ≠ .panics ∧ queryPairs denoms args ≠ .panics ∧ queryPair args ≠ .panics ∧ queryPools p d args ≠ .panics ∧
      queryPool denom addr args ≠ .panics ∧ queryDepositRequests args ≠ .panics ∧ queryDepositRequest args ≠ .panics ∧
      queryWithdrawRequests args ≠ .panics ∧ queryWithdrawRequest args ≠ .panics ∧ queryOrders p args ≠ .panics ∧
      queryOrder args ≠ .panics ∧ queryOrderBooks n args ≠ .panics := by
  refine ⟨exact_safe fun _ => by simp, exact_safe fun _ => by simp, number_safe, ?_, ?_, number_safe, ?_, number_safe, ?_, ?_, ?_, ?_⟩
  · exact exact_safe fun _ => need_safe fun _ _ => by split <;> simp
  · unfold queryPool maximumArgs
    match args with
    | [] => cases denom <;> cases addr <;> simp [poolRequest, excConditions]
    | [t] =>
      rw [if_pos (by simp), if_pos (by simp), arg_zero]
      refine need_safe fun _ _ => ?_
      cases denom <;> cases addr <;> simp [poolRequest, excConditions]
    | _ :: _ :: _ => simp
  · exact exact_safe fun h => by
      obtain ⟨a, b, rfl⟩ := len2.1 h
      exact need_safe fun _ _ => need_safe fun _ _ => by simp
  · exact exact_safe fun h => by
      obtain ⟨a, b, rfl⟩ := len2.1 h
      exact need_safe fun _ _ => need_safe fun _ _ => by simp
  · unfold queryOrders maximumArgs
    split
    · refine need_safe fun _ _ => ?_
      split
      · split <;> simp
      · simp
    · simp
  · exact exact_safe fun h => by
      obtain ⟨a, b, rfl⟩ := len2.1 h
      exact need_safe fun _ _ => need_safe fun _ _ => by simp
  · exact exact_safe fun h => by
      obtain ⟨a, rfl⟩ := len1.1 h
      exact need_safe fun _ _ => by simp

/-! ## Concrete cases -/

/-- Readers that know a few texts. -/
private def demoR : Readers where
  coin t := if t = "5000stake".toList then some ⟨.native 1, 5000⟩ else none
  coins t := if t = "9uatom,5000stake".toList then some [⟨.native 0, 9⟩, ⟨.native 1, 5000⟩] else none
  dec t := if t = "0.5".toList then some 500000000000000000 else none
  int t := if t = "10000".toList then some 10000 else none
  denomValid t := t == "uatom".toList || t == "stake".toList
  denom t := if t = "uatom".toList then .native 0 else .native 1

example : Cli.limitOrder demoR 7 60 (["1", "Buy", "5000stake", "uatom", "0.5", "10000"].map String.toList) =
    .sends (.limitOrder ⟨7, 1, .buy, ⟨.native 1, 5000⟩, .native 0, 500000000000000000, 10000, 60⟩) := by rfl
example : Cli.createPool demoR 7 (["012", "9uatom,5000stake"].map String.toList) =
    .sends (.createPool ⟨7, 12, [⟨.native 0, 9⟩, ⟨.native 1, 5000⟩]⟩) := by rfl
example : Cli.cancelAllOrders 7 ["1,3".toList] = .sends (.cancelAllOrders ⟨7, [1, 3]⟩) := by rfl
example : Cli.cancelOrder 7 (["1", "18446744073709551616"].map String.toList) = .error := by rfl
example : Numerals "1,03".toList [1, 3] := by rw [← numerals_iff]; decide +kernel
example : ¬ ∃ ids, Numerals "1,,3".toList ids := by
  rintro ⟨ids, h⟩
  rw [← numerals_iff] at h
  exact absurd h (by rw [show parsePairIds (split ',' "1,,3".toList) = none by decide +kernel]; simp)
example : Direction "SeLL".toList .sell := Or.inl (by decide)
example : queryDepositRequest (["2", "5"].map String.toList) = .sends (.depositRequest 2 2) := by decide +kernel
example : queryPool "pool1".toList [] [] = .sends (.poolByPoolCoinDenom "pool1".toList) := by decide +kernel
example : queryPool "pool1".toList [] ["1".toList] = .error := by decide +kernel
example : queryPools "3".toList "false".toList [] = .sends (.pools 3 "false".toList) := by decide +kernel
example : queryOrders "3".toList [] = .sends (.orders 3) := by decide +kernel

end Verif.Props
