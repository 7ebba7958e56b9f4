import Verif.Spec.Genesis
import Verif.Proofs.Steps
/-! # Import of an exported genesis -/
namespace Verif.Dex
open Verif Verif.Amm Verif.Spec

variable {α : Type} {key : α → Key}

theorem upsert_last {l : List α} {v : α} (h : ∀ x ∈ l, keyLt (key x) (key v) = true) : upsert key v l = l ++ [v] := by
  induction l with
  | nil => rfl
  | cons a l ih =>
    have ha := h a (by simp)
    have h1 : key a ≠ key v := fun e => by rw [e] at ha; exact keyLt_irrefl _ ha
    have h2 : ¬ keyLt (key v) (key a) = true := fun e => keyLt_irrefl _ (keyLt_trans ha e)
    unfold upsert
    rw [if_neg h1, if_neg h2, ih (fun x hx => h x (by simp [hx]))]
    rfl

theorem foldl_upsert {l acc : List α} (h : Sorted key (acc ++ l)) : l.foldl (fun a v => upsert key v a) acc = acc ++ l := by
  induction l generalizing acc with
  | nil => simp
  | cons v l ih =>
    have hv : ∀ x ∈ acc, keyLt (key x) (key v) = true := fun x hx =>
      (List.pairwise_append.1 h).2.2 x hx v (by simp)
    rw [List.foldl_cons, upsert_last hv, ih (by simpa using h)]
    simp

/-- Inserting the records of an ordered store one after the other gives the store back. -/
theorem rebuild {l : List α} (h : Sorted key l) : l.foldl (fun a v => upsert key v a) [] = l := by
  have := foldl_upsert (key := key) (l := l) (acc := []) (by simpa using h)
  simpa using this

theorem foldl_setPair (l : List Pair) (s : State) :
    l.foldl State.setPair s = { s with pairs := l.foldl (fun a v => upsert Pair.key v a) s.pairs } := by
  induction l generalizing s with
  | nil => rfl
  | cons a l ih => rw [List.foldl_cons, ih]; rfl

theorem foldl_setPool (l : List PoolRec) (s : State) :
    l.foldl State.setPool s = { s with pools := l.foldl (fun a v => upsert PoolRec.key v a) s.pools } := by
  induction l generalizing s with
  | nil => rfl
  | cons a l ih => rw [List.foldl_cons, ih]; rfl

theorem foldl_setDeposit (l : List DepReq) (s : State) :
    l.foldl State.setDeposit s = { s with deposits := l.foldl (fun a v => upsert DepReq.key v a) s.deposits } := by
  induction l generalizing s with
  | nil => rfl
  | cons a l ih => rw [List.foldl_cons, ih]; rfl

theorem foldl_setWithdraw (l : List WdReq) (s : State) :
    l.foldl State.setWithdraw s = { s with withdraws := l.foldl (fun a v => upsert WdReq.key v a) s.withdraws } := by
  induction l generalizing s with
  | nil => rfl
  | cons a l ih => rw [List.foldl_cons, ih]; rfl

theorem foldl_setOrder (l : List OrderRec) (s : State) :
    l.foldl State.setOrder s = { s with orders := l.foldl (fun a v => upsert OrderRec.key v a) s.orders } := by
  induction l generalizing s with
  | nil => rfl
  | cons a l ih => rw [List.foldl_cons, ih]; rfl

theorem foldl_numMM (l : List NumMMRecord) (s : State) : ∃ f,
    l.foldl (fun s r => s.setNumMM r.orderer r.pairId (some r.num)) s = { s with numMM := f } := by
  induction l generalizing s with
  | nil => exact ⟨s.numMM, rfl⟩
  | cons a l ih =>
    rw [List.foldl_cons]
    obtain ⟨f, hf⟩ := ih (s.setNumMM a.orderer a.pairId (some a.num))
    exact ⟨f, hf⟩

theorem foldl_numMM_other (l : List NumMMRecord) (s : State) (a p : Nat) (h : ∀ r ∈ l, ¬ (r.orderer = a ∧ r.pairId = p)) :
    (l.foldl (fun s r => s.setNumMM r.orderer r.pairId (some r.num)) s).numMM a p = s.numMM a p := by
  induction l generalizing s with
  | nil => rfl
  | cons r l ih =>
    rw [List.foldl_cons, ih _ (fun x hx => h x (by simp [hx]))]
    show (if a = r.orderer ∧ p = r.pairId then _ else _) = _
    rw [if_neg (fun e => h r (by simp) ⟨e.1.symm, e.2.symm⟩)]

theorem foldl_numMM_mem (l : List NumMMRecord) (s : State) (hn : (l.map (fun r => (r.orderer, r.pairId))).Nodup) {r : NumMMRecord}
    (hr : r ∈ l) :
    (l.foldl (fun s r => s.setNumMM r.orderer r.pairId (some r.num)) s).numMM r.orderer r.pairId = some r.num := by
  induction l generalizing s with
  | nil => cases hr
  | cons x l ih =>
    rw [List.map_cons, List.nodup_cons] at hn
    rw [List.foldl_cons]
    rcases List.mem_cons.1 hr with rfl | hr'
    · rw [foldl_numMM_other]
      · show (if _ then _ else _) = _
        rw [if_pos ⟨rfl, rfl⟩]
      · intro y hy e
        exact hn.1 (List.mem_map.2 ⟨y, hy, by rw [e.1, e.2]⟩)
    · exact ih _ hn.2 hr'

/-- Import on an empty module. -/
theorem initGenesis_export {s s0 : State} {recs : List NumMMRecord} (hw : WF s) (he : EmptyModule s0) (hr : ListsCounters s recs)
    (hv : (exportGenesis s recs).validate = true) :
    ∃ s', initGenesis (exportGenesis s recs) s0 = some s' ∧ SameModule s s' ∧ s'.bank = s0.bank ∧ s'.height = s0.height ∧
      s'.time = s0.time := by
  unfold initGenesis
  rw [if_neg (by rw [hv]; decide)]
  simp only [exportGenesis, foldl_setPair, foldl_setPool, foldl_setDeposit, foldl_setWithdraw, foldl_setOrder,
    he.pairs, he.pools, he.deposits, he.withdraws, he.orders, rebuild hw.pairsS, rebuild hw.poolsS, rebuild hw.depsS,
    rebuild hw.wdsS, rebuild hw.ordersS]
  refine ⟨_, rfl, ?_, ?_, ?_, ?_⟩
  · obtain ⟨f, hf⟩ := foldl_numMM recs { bank := s0.bank, params := s.params, lastPairId := s.lastPairId, lastPoolId := s.lastPoolId, pairs := s.pairs, pools := s.pools, deposits := s.deposits, withdraws := s.withdraws, orders := s.orders, numMM := s0.numMM, height := s0.height, time := s0.time, shortfall := s0.shortfall }
    refine ⟨by rw [hf], by rw [hf], by rw [hf], by rw [hf], by rw [hf], by rw [hf], by rw [hf], by rw [hf], ?_⟩
    intro a p
    rcases hc : s.numMM a p with _ | n
    · rw [foldl_numMM_other]
      · exact he.numMM a p
      · rintro r hr' ⟨rfl, rfl⟩
        rw [(hr.2 r).1 hr'] at hc
        cases hc
    · exact foldl_numMM_mem recs _ hr.1 (r := ⟨a, p, n⟩) ((hr.2 _).2 hc)
  all_goals
    obtain ⟨f, hf⟩ := foldl_numMM recs { bank := s0.bank, params := s.params, lastPairId := s.lastPairId, lastPoolId := s.lastPoolId, pairs := s.pairs, pools := s.pools, deposits := s.deposits, withdraws := s.withdraws, orders := s.orders, numMM := s0.numMM, height := s0.height, time := s0.time, shortfall := s0.shortfall }
    rw [hf]

/-- The counters of a reachable state can be listed. -/
theorem counters_listed {s : State} (hw : WF s) : ∃ recs, ListsCounters s recs := by
  let ks := (s.orders.map (fun o => (o.orderer, o.pairId))).dedup
  refine ⟨ks.filterMap (fun k => (s.numMM k.1 k.2).map (fun n => ⟨k.1, k.2, n⟩)), ?_, ?_⟩
  · have : ∀ (l : List (Nat × Nat)), l.Nodup →
        ((l.filterMap (fun k => (s.numMM k.1 k.2).map (fun n => (⟨k.1, k.2, n⟩ : NumMMRecord)))).map
          (fun r => (r.orderer, r.pairId))).Nodup := by
      intro l hl
      refine List.Nodup.sublist (?_ : List.Sublist _ l) hl
      induction l with
      | nil => simp
      | cons k l ih =>
        rw [List.filterMap_cons]
        rcases s.numMM k.1 k.2 with _ | n
        · exact (ih hl.of_cons).cons _
        · exact (ih hl.of_cons).cons_cons _
    exact this _ (List.nodup_dedup _)
  · intro r
    rw [List.mem_filterMap]
    constructor
    · rintro ⟨k, _, hk⟩
      rw [Option.map_eq_some_iff] at hk
      obtain ⟨n, hn, rfl⟩ := hk
      exact hn
    · intro h
      refine ⟨(r.orderer, r.pairId), ?_, by rw [h]; rfl⟩
      rw [List.mem_dedup, List.mem_map]
      have hm := hw.mm r.orderer r.pairId
      rw [h] at hm
      have hne : liveMM s.orders r.orderer r.pairId ≠ 0 := by
        intro e; rw [if_pos e] at hm; cases hm
      unfold liveMM at hne
      rw [← Nat.pos_iff_ne_zero, List.countP_pos_iff] at hne
      obtain ⟨o, ho, e⟩ := hne
      simp only [Bool.and_eq_true, beq_iff_eq] at e
      exact ⟨o, ho, by rw [e.1.2, e.2]⟩

end Verif.Dex
