import Verif.Rtmp.NotifyUrlModel
import Verif.Toolkit.UrlProps
/-
C65, the text of a call: the URL of the call has the host and the path of the configured one and exactly the parameters of the session, for texts without
`&` and `#`, a URL with a path and without fragment, and 2048 bytes; not otherwise.
-/
namespace Verif.Notify
open Verif

/-! ### Specification: the parameters of a query string -/

def splitAmp : Bytes → List Bytes
  | [] => [[]]
  | b :: l => if b = 38 then [] :: splitAmp l else match splitAmp l with
    | [] => [[b]]
    | x :: xs => (b :: x) :: xs

/-- Name and value, divided by the first `=`. -/
def pair (l : Bytes) : Bytes × Bytes := (l.takeWhile (· ≠ 61), (l.dropWhile (· ≠ 61)).drop 1)

def params (q : Bytes) : List (Bytes × Bytes) := if q = [] then [] else (splitAmp q).map pair

/-- The kinds of calls by their numbers (ngx_rtmp_notify_module.c:90-99). -/
def kinds : List (Nat × String) := [(0, "play"), (1, "publish"), (2, "pull"), (3, "push"), (4, "stream"), (5, "meta"), (6, "record")]

/-- The stages by their numbers. -/
def stages : List (Nat × String) := [(1, "start"), (2, "update"), (4, "done")]

/-- What a call has to say. -/
def facts (t s : String) (f : Fields) : List (Bytes × Bytes) :=
  [(txt "call", txt t), (txt "act", txt s), (txt "domain", f.domain), (txt "app", f.app), (txt "name", f.name), (txt "clientid", f.clientid)] ++
    (if f.groupid = [] then [] else [(txt "groupid", f.groupid)])

/-- Neither `&` nor `#`. -/
def plain (l : Bytes) : Prop := (38 : UInt8) ∉ l ∧ (35 : UInt8) ∉ l
instance : Decidable (plain l) := inferInstanceAs (Decidable (_ ∧ _))

/-- The length of a list of parameters as text, each with one separator. -/
def size (l : List (Bytes × Bytes)) : Nat := (l.map fun p => p.1.length + p.2.length + 2).sum

/-! ### Lemmas -/

theorem splitAmp_append (a b : Bytes) : splitAmp (a ++ 38 :: b) = splitAmp a ++ splitAmp b := by
  induction a with
  | nil => simp [splitAmp]
  | cons x a ih =>
    simp only [List.cons_append, splitAmp]
    split
    · rw [ih]; rfl
    · rw [ih]
      cases h : splitAmp a with
      | nil =>
        exfalso
        cases a with
        | nil => simp [splitAmp] at h
        | cons y a =>
          simp only [splitAmp] at h
          split at h
          · cases h
          · split at h <;> cases h
      | cons y ys => rfl

theorem splitAmp_plain (a : Bytes) (h : (38 : UInt8) ∉ a) : splitAmp a = [a] := by
  induction a with
  | nil => rfl
  | cons x a ih =>
    simp only [List.mem_cons, not_or] at h
    simp only [splitAmp, if_neg (Ne.symm h.1), ih h.2]

theorem pair_eq (k v : Bytes) (hk : (61 : UInt8) ∉ k) : pair (k ++ 61 :: v) = (k, v) := by
  induction k with
  | nil => simp [pair]
  | cons x k ih =>
    simp only [List.mem_cons, not_or] at hk
    have := ih hk.2
    simp only [pair, Prod.mk.injEq] at this ⊢
    have hx : decide (x ≠ 61) = true := decide_eq_true (fun e => hk.1 e.symm)
    rw [List.cons_append, List.takeWhile_cons, if_pos hx, List.dropWhile_cons, if_pos hx, this.1]
    exact ⟨rfl, this.2⟩

theorem params_append (a b : Bytes) (ha : a ≠ []) (hb : b ≠ []) : params (a ++ 38 :: b) = params a ++ params b := by
  simp [params, ha, hb, splitAmp_append]

theorem params_one (k v : Bytes) (hk : (61 : UInt8) ∉ k) (hk' : (38 : UInt8) ∉ k) (hv : (38 : UInt8) ∉ v) : params (k ++ 61 :: v) = [(k, v)] := by
  have : splitAmp (k ++ 61 :: v) = [k ++ 61 :: v] := splitAmp_plain _ (by simp [hk', hv])
  simp [params, this, pair_eq k v hk]

/-- Everything fits. -/
theorem put_fits (buf t : Bytes) (h : buf.length + t.length ≤ maxUrl) : put buf t = buf ++ t := by
  unfold put; rw [List.take_of_length_le (by omega)]

theorem put_room (buf t : Bytes) (h : buf.length ≤ maxUrl) : (put buf t).length ≤ maxUrl := by
  unfold put; rw [List.length_append, List.length_take]; omega

/-- The buffer is never overrun, whatever the session sends. -/
theorem C65_url_room (base : Bytes) (f : Fields) (type stage : Nat) (r : Bytes) (h : commonUrl base f type stage = some r) : r.length ≤ 2048 := by
  have h0 : (put [] base).length ≤ maxUrl := put_room _ _ (by simp)
  unfold commonUrl at h
  split at h
  · simp only [Option.some.injEq] at h
    subst h
    have h3 : ∀ (c : Prop) [Decidable c] (a b : Bytes), a.length ≤ maxUrl → b.length ≤ maxUrl → (if c then a else b).length ≤ maxUrl := by
      intro c _ a b ha hb; split <;> assumption
    have h4 : ∀ (p t : Bytes), p.length ≤ maxUrl → (put p t).length ≤ maxUrl := put_room
    have h1 := h3 (((Url.parse {} base).getD {}).args.length ≠ 0)
    exact h3 _ _ _ (h4 _ _ (h3 _ _ _ (h4 _ _ (h1 _ _ (h4 _ _ h0) (h4 _ _ h0))) (h1 _ _ (h4 _ _ h0) (h4 _ _ h0))))
      (h3 _ _ _ (h4 _ _ (h1 _ _ (h4 _ _ h0) (h4 _ _ h0))) (h1 _ _ (h4 _ _ h0) (h4 _ _ h0)))
  · cases h

/-- The fields as text. -/
def tail (t s : String) (f : Fields) : Bytes :=
  txt "call=" ++ txt t ++ txt "&act=" ++ txt s ++ txt "&domain=" ++ f.domain ++ txt "&app=" ++ f.app ++ txt "&name=" ++ f.name ++
      txt "&clientid=" ++ f.clientid ++ (if f.groupid = [] then [] else txt "&groupid=" ++ f.groupid) ++ (if f.args = [] then [] else txt "&" ++ f.args)

theorem txts : txt "call=" = txt "call" ++ [61] ∧ txt "&act=" = 38 :: (txt "act" ++ [61]) ∧ txt "&domain=" = 38 :: (txt "domain" ++ [61]) ∧
    txt "&app=" = 38 :: (txt "app" ++ [61]) ∧ txt "&name=" = 38 :: (txt "name" ++ [61]) ∧ txt "&clientid=" = 38 :: (txt "clientid" ++ [61]) ∧
    txt "&groupid=" = 38 :: (txt "groupid" ++ [61]) ∧ txt "&" = [38] ∧ txt "?" = [63] := by decide +kernel

theorem keys : ∀ k ∈ ["call", "act", "domain", "app", "name", "clientid", "groupid"].map txt, (61 : UInt8) ∉ k ∧ (38 : UInt8) ∉ k ∧ (35 : UInt8) ∉ k := by decide +kernel

/-- A list of pairs as text. -/
def join : List (Bytes × Bytes) → Bytes
  | [] => []
  | [p] => p.1 ++ 61 :: p.2
  | p :: l => p.1 ++ 61 :: p.2 ++ 38 :: join l

theorem join_ne (p : Bytes × Bytes) (l) : join (p :: l) ≠ [] := by
  cases l <;> simp [join]

theorem params_join (l : List (Bytes × Bytes)) (h : ∀ p ∈ l, (61 : UInt8) ∉ p.1 ∧ (38 : UInt8) ∉ p.1 ∧ (38 : UInt8) ∉ p.2) : params (join l) = l := by
  induction l with
  | nil => rfl
  | cons p l ih =>
    obtain ⟨h1, h2, h3⟩ := h p (by simp)
    have ih := ih fun q hq => h q (by simp [hq])
    cases l with
    | nil => exact params_one _ _ h1 h2 h3
    | cons q l =>
      show params (p.1 ++ 61 :: p.2 ++ 38 :: join (q :: l)) = _
      rw [params_append _ _ (by simp) (join_ne q l), ih, params_one _ _ h1 h2 h3]
      rfl

theorem join_size (l : List (Bytes × Bytes)) (h : l ≠ []) : (join l).length + 1 = size l := by
  induction l with
  | nil => exact absurd rfl h
  | cons p l ih =>
    cases l with
    | nil => simp [join, size]; omega
    | cons q l =>
      have := ih (by simp)
      simp only [join, size, List.map_cons, List.sum_cons, List.length_append, List.length_cons] at this ⊢
      omega

theorem join_hash (l : List (Bytes × Bytes)) (h : ∀ p ∈ l, (35 : UInt8) ∉ p.1 ∧ (35 : UInt8) ∉ p.2) : (35 : UInt8) ∉ join l := by
  induction l with
  | nil => simp [join]
  | cons p l ih =>
    have h1 := h p (by simp)
    have ih := ih fun q hq => h q (by simp [hq])
    cases l with
    | nil => simp [join, h1]
    | cons q l =>
      simp only [join, List.mem_append, List.mem_cons, not_or]
      exact ⟨⟨h1.1, by decide, h1.2⟩, by decide, ih⟩

theorem tail_eq (t s : String) (f : Fields) : tail t s f = join (facts t s f) ++ (if f.args = [] then [] else 38 :: f.args) := by
  obtain ⟨e1, e2, e3, e4, e5, e6, e7, e8, _⟩ := txts
  unfold tail facts
  rw [e1, e2, e3, e4, e5, e6, e7, e8]
  by_cases hg : f.groupid = []
  · simp [hg, join, List.append_assoc]
  · simp [hg, join, List.append_assoc]

theorem facts_keys (t s : String) (f : Fields) : ∀ p ∈ facts t s f, (61 : UInt8) ∉ p.1 ∧ (38 : UInt8) ∉ p.1 ∧ (35 : UInt8) ∉ p.1 := by
  intro p hp
  apply keys
  unfold facts at hp
  by_cases hg : f.groupid = [] <;> simp [hg] at hp <;> rcases hp with h | h | h | h | h | h | h <;> simp_all

/-- What is written when everything fits. -/
theorem common_eq (base : Bytes) (f : Fields) (type stage : Nat) (t s : String) (ht : appType[type]? = some (txt t)) (hs : stageName[stage]? = some (txt s))
    (hl : base.length + 1 + (tail t s f).length ≤ 2048) :
    commonUrl base f type stage = some (base ++ (if ((Url.parse {} base).getD {}).args = [] then 63 else 38) :: tail t s f) := by
  obtain ⟨_, _, _, _, _, _, _, e8, e9⟩ := txts
  unfold commonUrl
  rw [ht, hs]
  dsimp only
  have h0 : put [] base = base := by rw [put_fits _ _ (by simp [maxUrl]; omega)]; rfl
  rw [h0]
  unfold tail at hl ⊢
  simp only [e8, e9] at hl ⊢
  generalize txt "call=" ++ txt t ++ txt "&act=" ++ txt s ++ txt "&domain=" ++ f.domain ++ txt "&app=" ++ f.app ++ txt "&name=" ++ f.name ++
      txt "&clientid=" ++ f.clientid = rest at *
  generalize ((Url.parse {} base).getD {}).args = ar
  have hm : maxUrl = 2048 := rfl
  by_cases ha : ar = [] <;> by_cases hg : f.groupid = [] <;> by_cases hr : f.args = [] <;>
    simp only [ha, hg, hr, List.length_nil, ne_eq, not_true_eq_false, not_false_eq_true, if_true, if_false, List.length_eq_zero_iff, List.append_nil,
      List.length_append, List.length_cons] at hl ⊢ <;>
    · simp only [List.cons_append, List.nil_append]
      rw [put_fits base _ (by simp only [List.length_append, List.length_cons, List.length_nil]; omega)]
      try rw [put_fits (base ++ _) _ (by simp only [List.length_append, List.length_cons, List.length_nil]; omega)]
      try rw [put_fits (base ++ _ ++ _) _ (by simp only [List.length_append, List.length_cons, List.length_nil]; omega)]
      try simp [List.append_assoc]

theorem tableNames : (∀ p ∈ kinds, appType[p.1]? = some (txt p.2)) ∧ (∀ p ∈ stages, stageName[p.1]? = some (txt p.2)) := by decide +kernel

theorem tables : (∀ x ∈ appType, plain x) ∧ (∀ x ∈ stageName, plain x) := by decide +kernel

/-- C65, the URL: for a configured URL with a path and without fragment, texts without `&` and `#` and room for all, the call goes to the configured host
and path, and its parameters are the configured ones, then the facts, then those of `args`. -/
theorem C65_url_partial (u : Url.Url) (hu : u.Valid) (hp : u.path ≠ none) (hq : ∀ a fr, u.query ≠ some (a, some fr)) (f : Fields) (type stage : Nat) (t s : String)
    (ht : (type, t) ∈ kinds) (hs : (stage, s) ∈ stages)
    (hf : plain f.domain ∧ plain f.app ∧ plain f.name ∧ plain f.clientid ∧ plain f.groupid ∧ (35 : UInt8) ∉ f.args)
    (hl : u.text.length + size (facts t s f) + (f.args.length + 1) ≤ 2048) :
    ∃ text r, commonUrl u.text f type stage = some text ∧ Url.parse {} text = some r ∧ r.scheme = u.scheme ∧ r.user = u.user.getD [] ∧ r.host = u.host ∧
      r.port = u.port.getD [] ∧ r.path = u.path.getD [] ∧ r.fragment = [] ∧
      params r.args = params u.view.args ++ facts t s f ++ params f.args := by
  have ht := tableNames.1 _ ht
  have hs := tableNames.2 _ hs
  have hts : plain (txt t) ∧ plain (txt s) := ⟨tables.1 _ (List.mem_of_getElem? ht), tables.2 _ (List.mem_of_getElem? hs)⟩
  have hsz := join_size (facts t s f) (by simp [facts])
  have htl : u.text.length + 1 + (tail t s f).length ≤ 2048 := by
    rw [tail_eq, List.length_append]
    have : (if f.args = [] then [] else 38 :: f.args : Bytes).length ≤ f.args.length + 1 := by split <;> simp
    omega
  have hpl : ∀ p ∈ facts t s f, plain p.2 := by
    obtain ⟨h1, h2, h3, h4, h5, _⟩ := hf
    intro p hp
    unfold facts at hp
    simp only [List.mem_append, List.mem_cons, List.not_mem_nil, or_false] at hp
    rcases hp with hp | hp
    · rcases hp with h | h | h | h | h | h <;> rw [h] <;> first | exact hts.1 | exact hts.2 | assumption
    · split at hp
      · cases hp
      · rw [List.mem_singleton] at hp; rw [hp]; exact h5
  have hpar : params (tail t s f) = facts t s f ++ params f.args := by
    have hj := params_join (facts t s f) fun p hp => ⟨(facts_keys t s f p hp).1, (facts_keys t s f p hp).2.1, (hpl p hp).1⟩
    rw [tail_eq]
    by_cases ha : f.args = []
    · rw [ha, if_pos rfl, List.append_nil, hj]; simp [params]
    · rw [if_neg ha, params_append _ _ (by simp [facts, join_ne]) ha, hj]
  have hhash : (35 : UInt8) ∉ tail t s f := by
    rw [tail_eq, List.mem_append, not_or]
    refine ⟨join_hash _ fun p hp => ⟨(facts_keys t s f p hp).2.2, (hpl p hp).2⟩, ?_⟩
    split
    · simp
    · simp only [List.mem_cons, not_or]; exact ⟨by decide, hf.2.2.2.2.2⟩
  have hne : tail t s f ≠ [] := by rw [tail_eq]; simp [join_ne, facts]
  have hc := common_eq u.text f type stage t s ht hs htl
  rw [Url.C31_complete u hu] at hc
  simp only [Option.getD_some] at hc
  obtain ⟨x, hx⟩ := Option.ne_none_iff_exists'.1 hp
  have key : ∃ args, (args ≠ [] ∧ (35 : UInt8) ∉ args ∧ params args = params u.view.args ++ (facts t s f ++ params f.args)) ∧
      commonUrl u.text f type stage = some ({ u with query := some (args, none) } : Url.Url).text := by
    rw [hc]
    cases hqq : u.query with
    | none =>
      refine ⟨tail t s f, ⟨hne, hhash, ?_⟩, ?_⟩
      · rw [hpar]; simp [Url.Url.view, hqq, params]
      · rw [Url.text_eq, Url.text_eq, Url.view_eq]
        simp [hqq, hx, Url.queryArgs, Url.queryText]
    | some p =>
      obtain ⟨a, fr⟩ := p
      cases fr with
      | some fr => exact absurd hqq (hq a fr)
      | none =>
        obtain ⟨ha1, ha2⟩ := hu.args a hqq
        refine ⟨a ++ 38 :: tail t s f, ⟨by simp, ?_, ?_⟩, ?_⟩
        · simp [ha2, hhash]
        · rw [params_append _ _ ha1 hne, hpar]; simp [Url.Url.view, hqq]
        · rw [Url.text_eq, Url.text_eq, Url.view_eq]
          simp [hqq, hx, Url.queryArgs, Url.queryText, ha1]
  obtain ⟨args, ⟨hz1, hz2, hz3⟩, hz⟩ := key
  have hv : ({ u with query := some (args, none) } : Url.Url).Valid := by
    refine ⟨hu.scheme, hu.first, hu.user, hu.host, hu.port, hu.userHost, ?_, hu.path, ?_, ?_, ?_⟩
    · simp [Url.Url.pathText, hx, Url.ascii1]
    · intro h; exact absurd h hp
    · intro a h
      simp only [Option.some.injEq, Prod.mk.injEq, and_true] at h
      subst h; exact ⟨hz1, hz2⟩
    · intro a fr h; simp at h
  refine ⟨_, _, hz, Url.C31_complete _ hv, rfl, rfl, rfl, rfl, rfl, rfl, ?_⟩
  rw [List.append_assoc, ← hz3]
  rfl

/-- The hypotheses hold of an ordinary configuration. -/
def wBase : Url.Url := ⟨txt "http", none, txt "auth", some (txt "80"), some (txt "cb"), some (txt "k=1", none)⟩

def wFields (name : String) : Fields := { domain := txt "d", app := txt "live", name := txt name, clientid := txt "7", groupid := txt "g", args := txt "a=b" }

theorem wBase_valid : wBase.Valid := by
  refine ⟨by decide +kernel, by decide +kernel, by simp [wBase], by decide +kernel, ?_, by simp [wBase], by decide +kernel, ?_, by simp [wBase], ?_, by simp [wBase]⟩
  · intro x hx; simp only [wBase, Option.some.injEq] at hx; subst hx; decide +kernel
  · intro x hx; simp only [wBase, Option.some.injEq] at hx; subst hx; decide +kernel
  · intro x hx; simp only [wBase, Option.some.injEq, Prod.mk.injEq, and_true] at hx; subst hx; decide +kernel

example : wBase.Valid ∧ wBase.path ≠ none ∧ (∀ a fr, wBase.query ≠ some (a, some fr)) ∧ (1, "publish") ∈ kinds ∧ (1, "start") ∈ stages ∧
    plain (wFields "s").domain ∧ plain (wFields "s").app ∧ plain (wFields "s").name ∧
    plain (wFields "s").clientid ∧ plain (wFields "s").groupid ∧ (35 : UInt8) ∉ (wFields "s").args ∧
    wBase.text.length + size (facts "publish" "start" (wFields "s")) + ((wFields "s").args.length + 1) ≤ 2048 :=
  ⟨wBase_valid, by simp [wBase], by simp [wBase], by decide +kernel, by decide +kernel, by decide +kernel, by decide +kernel, by decide +kernel, by decide +kernel,
    by decide +kernel, by decide +kernel, by decide +kernel⟩

/-! ### What is not so -/

/-- The parameters that the server of the callbacks gets. -/
def received (base : String) (f : Fields) : Option (List (Bytes × Bytes)) :=
  ((commonUrl (txt base) f 1 1).bind (Url.parse {})).map fun r => params r.args

/-- Nothing is escaped: a publisher named `s&app=vip` asks for the app `live` and its call says `app=vip` as well, in the later place. -/
theorem C65_inject_violation : (received "http://auth/cb" (wFields "s&app=vip")).map (fun l => l.filter fun p => p.1 == txt "app") =
    some [(txt "app", txt "live"), (txt "app", txt "vip")] := by decide +kernel

/-- A `#` in the name hides what follows: the call has no number of the client. -/
theorem C65_hash_violation : received "http://auth/cb" (wFields "s#") =
    some [(txt "call", txt "publish"), (txt "act", txt "start"), (txt "domain", txt "d"), (txt "app", txt "live"), (txt "name", txt "s")] := by decide +kernel

/-- With a configured URL without path the parameters become part of the host. -/
theorem C65_nopath_violation : ((commonUrl (txt "http://auth") { wFields "s" with args := [] } 1 1).bind (Url.parse {})).map (fun r => (r.host, r.path, r.args)) =
    some (txt "auth?call=publish&act=start&domain=d&app=live&name=s&clientid=7&groupid=g", [], []) := by decide +kernel

/-- With a fragment after configured arguments the parameters become part of the fragment. -/
theorem C65_fragment_violation : received "http://auth/cb?k=1#f" (wFields "s") = some [(txt "k", txt "1")] := by decide +kernel

end Verif.Notify
