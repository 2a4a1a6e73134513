import Verif.Toolkit.MapLemmas
/- Property C23: `ngx_map` is a finite map with ordered iteration. -/
namespace Verif.Map
open Verif

variable {K : Type} [DecidableEq K]

/-- C23: after any sequence of inserts and deletes, with any hash (collisions included), any total comparison and any
rebalancing, `find` answers like a finite map. -/
theorem C23_finite_map {c : Conf K} (hc : Total c.cmp) {ops : List (Op K)} {t : Tree K} (h : Run c ops t) (k : K) :
    find c k t = contents ops k := by
  obtain ⟨hs, hm⟩ := run_spec hc h
  cases hcn : contents ops k with
  | none =>
    rw [find_none_iff hc k t hs]
    intro e he hk
    have := (hm e).1 he
    rw [hk, hcn] at this
    cases this
  | some e =>
    have hk := contents_key ops k e hcn
    exact (find_iff hc k e t hs).2 ⟨(hm e).2 (by rw [hk]; exact hcn), hk⟩

/-- C23: every call can be carried out: there is a resulting tree. -/
theorem C23_total {c : Conf K} (hc : Total c.cmp) {ops : List (Op K)} {t : Tree K} (h : Run c ops t) (o : Op K) :
    ∃ t', Run c (o :: ops) t' := by
  have treeOf : ∀ l : List (Entry K), ∃ t : Tree K, t.inorder = l := by
    intro l
    induction l with
    | nil => exact ⟨.leaf, rfl⟩
    | cons e l ih => obtain ⟨t, ht⟩ := ih; exact ⟨.node .leaf e t, by simp [Tree.inorder, ht]⟩
  have del : ∀ k, ∃ t', Delete c t k t' := by
    intro k
    cases hf : find c k t with
    | none => exact ⟨t, .miss hf⟩
    | some e =>
      have := (find_iff hc k e t (run_spec hc h).1).1 hf
      obtain ⟨a, b, hab⟩ := List.append_of_mem this.1
      obtain ⟨t', ht'⟩ := treeOf (a ++ b)
      exact ⟨t', .hit hf ⟨a, b, hab, ht'⟩⟩
  cases o with
  | delete k =>
    obtain ⟨t', h'⟩ := del k
    exact ⟨t', .delete h h'⟩
  | insert e cov =>
    cases hf : find c e.key t with
    | none => exact ⟨_, .insert h (.fresh hf rfl)⟩
    | some x =>
      cases cov with
      | false => exact ⟨t, .insert h (.keep hf)⟩
      | true =>
        obtain ⟨t1, h1⟩ := del e.key
        exact ⟨_, .insert h (.cover hf h1 rfl)⟩

/-- C23: walking from `begin` with `next` visits every entry exactly once, in strictly increasing order, and ends; walking
with `prev` retraces the same steps, starting from `rbegin`. -/
theorem C23_iteration {c : Conf K} (hc : Total c.cmp) {ops : List (Op K)} {t : Tree K} (h : Run c ops t) :
    ∃ (ps : List Path) (es : List (Entry K)),
      ps.map t.entry? = es.map some ∧
      (∀ e, e ∈ es ↔ contents ops e.key = some e) ∧
      es.Pairwise (fun x y => c.order x.key y.key = .lt) ∧
      mbegin t = ps.head? ∧ mrbegin t = ps.getLast? ∧
      (∀ pre q post, ps = pre ++ q :: post → next t q = post.head? ∧ prev t q = pre.getLast?) := by
  obtain ⟨hs, hm⟩ := run_spec hc h
  refine ⟨paths t [], t.inorder, paths_entries t t [] rfl, hm, hs, ?_, ?_, ?_⟩
  · cases t with
    | leaf => rfl
    | node l e r => rw [leftmost_head _ _ (by simp)]; rfl
  · cases t with
    | leaf => rfl
    | node l e r => rw [rightmost_last _ _ (by simp)]; rfl
  · intro pre q post hp
    refine ⟨?_, ?_⟩
    · rw [next_paths t t [] rfl pre q post hp]
      cases post <;> rfl
    · rw [prev_paths t t [] rfl pre q post hp]
      cases pre.getLast? <;> rfl

/-! ### The key types of the module -/

omit [DecidableEq K] in
theorem cmpInt_total {α : Type} (f : α → Int) (hf : ∀ a b, f a = f b → a = b) [DecidableEq α] :
    Total (fun a b => cmpInt (f a) (f b)) where
  eq_iff := by
    intro a b
    simp only [cmpInt]
    constructor
    · intro h
      apply hf
      split at h
      · cases h
      · split at h
        · cases h
        · omega
    · rintro rfl; simp
  swap := by
    intro a b
    simp only [cmpInt]
    by_cases h1 : f a < f b
    · rw [if_pos h1, if_neg (by omega), if_pos h1]; simp
    · by_cases h2 : f b < f a
      · rw [if_neg h1, if_pos h2, if_pos h2]; simp
      · rw [if_neg h1, if_neg h2, if_neg h2, if_neg h1]; simp
  trans := by
    intro a b d
    simp only [cmpInt]
    by_cases h1 : f a < f b
    · rw [if_pos h1]
      by_cases h2 : f b < f d
      · intro _ _; rw [if_pos (by omega)]
      · rw [if_neg h2]; split <;> (intro _ h; cases h)
    · rw [if_neg h1]; split <;> (intro h; cases h)

theorem cmpStr_total : Total cmpStr where
  eq_iff := by
    intro a
    induction a with
    | nil => intro b; cases b <;> simp [cmpStr]
    | cons x a ih =>
      intro b
      cases b with
      | nil => simp [cmpStr]
      | cons y b =>
        simp only [cmpStr]
        by_cases h1 : x.toNat < y.toNat
        · rw [if_pos h1]; simp; intro e; subst e; omega
        · by_cases h2 : y.toNat < x.toNat
          · rw [if_neg h1, if_pos h2]; simp; intro e; subst e; omega
          · rw [if_neg h1, if_neg h2, ih b]
            have : x = y := UInt8.toNat_inj.1 (by omega)
            simp [this]
  swap := by
    intro a
    induction a with
    | nil => intro b; cases b <;> simp [cmpStr]
    | cons x a ih =>
      intro b
      cases b with
      | nil => simp [cmpStr]
      | cons y b =>
        simp only [cmpStr]
        by_cases h1 : x.toNat < y.toNat
        · rw [if_pos h1, if_neg (by omega), if_pos h1]; simp
        · by_cases h2 : y.toNat < x.toNat
          · rw [if_neg h1, if_pos h2, if_pos h2]; simp
          · rw [if_neg h1, if_neg h2, if_neg h2, if_neg h1]; exact ih b
  trans := by
    intro a
    induction a with
    | nil =>
      intro b d h1 h2
      cases b with
      | nil => simp [cmpStr] at h1
      | cons y b =>
        cases d with
        | nil => simp [cmpStr] at h2
        | cons z d => simp [cmpStr]
    | cons x a ih =>
      intro b d h1 h2
      cases b with
      | nil => simp [cmpStr] at h1
      | cons y b =>
        cases d with
        | nil => simp [cmpStr] at h2
        | cons z d =>
          simp only [cmpStr] at h1 h2 ⊢
          by_cases p1 : x.toNat < y.toNat
          · by_cases q1 : y.toNat < z.toNat
            · rw [if_pos (by omega)]
            · rw [if_neg q1] at h2
              by_cases q2 : z.toNat < y.toNat
              · rw [if_pos q2] at h2; cases h2
              · rw [if_pos (by omega)]
          · rw [if_neg p1] at h1
            by_cases p2 : y.toNat < x.toNat
            · rw [if_pos p2] at h1; cases h1
            · rw [if_neg p2] at h1
              by_cases q1 : y.toNat < z.toNat
              · rw [if_pos (by omega)]
              · rw [if_neg q1] at h2
                by_cases q2 : z.toNat < y.toNat
                · rw [if_pos q2] at h2; cases h2
                · rw [if_neg q2] at h2
                  rw [if_neg (by omega), if_neg (by omega)]
                  exact ih b d h1 h2

/-- C23: the string, unsigned and signed comparisons of the module meet the hypothesis of the theorems above. -/
theorem C23_key_types (hash : Bytes → Nat) :
    Total (strConf hash).cmp ∧ Total uintConf.cmp ∧ Total intConf.cmp :=
  ⟨cmpStr_total, cmpInt_total (fun n : Nat => (n : Int)) (fun a b h => by omega), cmpInt_total (fun n : Int => n) (fun a b h => h)⟩

omit [DecidableEq K] in
theorem order_lt_iff (c : Conf K) (a b : K) :
    c.order a b = .lt ↔ c.hash a < c.hash b ∨ (c.hash a = c.hash b ∧ c.cmp a b = .lt) := by
  unfold Conf.order
  by_cases h1 : c.hash a < c.hash b
  · simp [h1]
  · by_cases h2 : c.hash b < c.hash a
    · rw [if_neg h1, if_pos h2]; simp; omega
    · rw [if_neg h1, if_neg h2]
      have : c.hash a = c.hash b := by omega
      simp [this]

theorem cmpInt_lt (a b : Int) : cmpInt a b = .lt ↔ a < b := by
  unfold cmpInt
  by_cases h1 : a < b
  · simp [h1]
  · rw [if_neg h1]; split <;> simp [h1]

/-- C23: for unsigned keys the order of iteration is the numeric order. -/
theorem C23_uint_order (a b : Nat) : uintConf.order a b = .lt ↔ a < b := by
  rw [order_lt_iff]
  show a < b ∨ (a = b ∧ cmpInt a b = .lt) ↔ a < b
  rw [cmpInt_lt]
  omega

/-- C23 for signed keys: the order of iteration is the numeric order as long as the keys are not negative. -/
theorem C23_int_order_partial (a b : Int) (ha : 0 ≤ a) (hb : 0 ≤ b) (ha' : a < 18446744073709551616)
    (hb' : b < 18446744073709551616) : intConf.order a b = .lt ↔ a < b := by
  rw [order_lt_iff]
  show (a % 18446744073709551616).toNat < (b % 18446744073709551616).toNat ∨
    ((a % 18446744073709551616).toNat = (b % 18446744073709551616).toNat ∧ cmpInt a b = .lt) ↔ a < b
  rw [cmpInt_lt, Int.emod_eq_of_lt ha ha', Int.emod_eq_of_lt hb hb']
  omega

/-- C23, what goes wrong: the header promises that `begin` is the minimum and `next` the next bigger key, but a negative signed
key is sorted behind all others, because the hash is the key as an unsigned number. -/
theorem C23_int_order_violation : ∃ (ops : List (Op Int)) (t : Tree Int) (p : Path) (e : Entry Int), Run intConf ops t ∧
    mbegin t = some p ∧ t.entry? p = some e ∧ e.key = 1 ∧ contents ops (-1) ≠ none := by
  refine ⟨[.insert ⟨-1, 1⟩ false, .insert ⟨1, 0⟩ false], .node .leaf ⟨1, 0⟩ (.node .leaf ⟨-1, 1⟩ .leaf), [], ⟨1, 0⟩,
    .insert (.insert .init (.fresh rfl (t' := .node .leaf ⟨1, 0⟩ .leaf) rfl)) (.fresh (by decide) (by
      show _ = _; decide)), rfl, rfl, rfl, by decide⟩

/-! A non-trivial history with colliding hashes: covered insertion replaces, uncovered keeps. -/
example : ∃ t, Run (strConf fun _ => 7) [.delete [98], .insert ⟨[97], 3⟩ true, .insert ⟨[98], 2⟩ false, .insert ⟨[97], 1⟩ false] t ∧
    find (strConf fun _ => 7) [97] t = some ⟨[97], 3⟩ ∧ find (strConf fun _ => 7) [98] t = none := by
  have hc : Total (strConf fun _ => 7).cmp := cmpStr_total
  obtain ⟨t1, h1⟩ := C23_total hc .init (.insert ⟨[97], 1⟩ false)
  obtain ⟨t2, h2⟩ := C23_total hc h1 (.insert ⟨[98], 2⟩ false)
  obtain ⟨t3, h3⟩ := C23_total hc h2 (.insert ⟨[97], 3⟩ true)
  obtain ⟨t4, h4⟩ := C23_total hc h3 (.delete [98])
  exact ⟨t4, h4, by rw [C23_finite_map hc h4]; decide, by rw [C23_finite_map hc h4]; decide⟩

end Verif.Map
