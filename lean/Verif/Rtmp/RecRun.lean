import Verif.Rtmp.RecPlan
/- Items written for a sequence of messages make a recording. -/
namespace Verif.Rec
open Verif Verif.Flv

def planRun (c : Conf) (shift : Nat) (f : Fl) : List Av → Fl × List Item
  | [] => (f, [])
  | e :: es => ((planRun c shift (plan c shift f e).1 es).1, (plan c shift f e).2 ++ (planRun c shift (plan c shift f e).1 es).2)

theorem planRun_append (c : Conf) (shift : Nat) (es es' : List Av) : ∀ f, planRun c shift f (es ++ es') =
    ((planRun c shift (planRun c shift f es).1 es').1, (planRun c shift f es).2 ++ (planRun c shift (planRun c shift f es).1 es').2) := by
  induction es with
  | nil => intro f; simp [planRun]
  | cons e es ih => intro f; simp [planRun, ih]

theorem framesOf_append (is js : List Item) : framesOf (is ++ js) = framesOf is ++ framesOf js := by
  induction is with
  | nil => rfl
  | cons i is ih => cases i <;> simp [framesOf, ih]

def isAacHdr : Item → Bool
  | .aacHdr _ _ => true
  | _ => false
def isAvcHdr : Item → Bool
  | .avcHdr _ _ => true
  | _ => false

def isStart : Item → Bool
  | .frame e => startsVideo e
  | _ => false

def wantsAac : Item → Bool
  | .frame e => e.type = 8 && isAac e
  | _ => false
def wantsAvc : Item → Bool
  | .frame e => e.type = 9 && isH264 e
  | _ => false
def wantsKey : Item → Bool
  | .frame e => e.type = 9
  | _ => false

/-- What an item needs was seen before or is the item. -/
def okS (seen need : Item → Bool) : Bool → List Item → Prop
  | _, [] => True
  | b, i :: is => (need i = true → (b || seen i) = true) ∧ okS seen need (b || seen i) is

theorem okS_append (seen need : Item → Bool) (is js : List Item) : ∀ b, okS seen need b (is ++ js) ↔
    okS seen need b is ∧ okS seen need (b || is.any seen) js := by
  induction is with
  | nil => intro b; simp [okS]
  | cons i is ih => intro b; simp [okS, ih, Bool.or_assoc, and_assoc]

theorem okS_spec {seen need : Item → Bool} {pre : List Item} {i : Item} {post : List Item} (h : okS seen need false (pre ++ i :: post)) (hn : need i = true) :
    ∃ j ∈ pre ++ [i], seen j = true := by
  rw [okS_append] at h
  have := h.2.1 hn
  simp only [Bool.false_or, Bool.or_eq_true, List.any_eq_true] at this
  rcases this with ⟨j, hj, hs⟩ | hs
  · exact ⟨j, by simp [hj], hs⟩
  · exact ⟨i, by simp, hs⟩

def nat (b : Bool) : Nat := if b then 1 else 0

/-- One message. -/
structure Good (c : Conf) (f : Fl) (e : Av) (r : Fl × List Item) : Prop where
  order : r.2.Sublist (sources e)
  hAsked : ∀ x ∈ framesOf r.2, asked c x = true
  aac : okS isAacHdr wantsAac f.aac r.2
  avc : okS isAvcHdr wantsAvc f.avc r.2
  key : okS isStart wantsKey f.key r.2
  aac' : r.1.aac = (f.aac || r.2.any isAacHdr)
  avc' : r.1.avc = (f.avc || r.2.any isAvcHdr)
  key' : r.1.key = (f.key || r.2.any isStart)
  cntAac : (r.2.filter isAacHdr).length + nat f.aac = nat r.1.aac
  cntAvc : (r.2.filter isAvcHdr).length + nat f.avc = nat r.1.avc

theorem frame_cases (f : Fl) (e : Av) (he : e.Ok) : ((planFrame f e).2 = [] ∧ (planFrame f e).1 = f) ∨
    ((planFrame f e).2 = [.frame e] ∧ (planFrame f e).1 = { f with key := f.key || startsVideo e, cnt := true } ∧
      (e.type = 9 → (f.key || startsVideo e) = true ∧ (isH264 e = true → f.avc = true)) ∧ (e.type = 8 → isAac e = true → f.aac = true)) := by
  unfold planFrame
  rcases he.hType with h8 | h9
  · have hs : startsVideo e = false := by simp [startsVideo, h8]
    rw [if_neg (by omega), isAac_eq]
    by_cases h : (isAac e && !f.aac) = true
    · rw [if_pos h]; exact .inl ⟨rfl, rfl⟩
    · rw [if_neg h]
      refine .inr ⟨rfl, by simp [hs], fun h9 => by omega, fun _ ha => ?_⟩
      simpa [ha] using h
  · rw [if_pos h9, isH264_eq]
    by_cases h : (isH264 e && !f.avc) = true
    · rw [if_pos h]; exact .inl ⟨rfl, rfl⟩
    · rw [if_neg h]
      by_cases hk : (f.key || startsVideo e) = true
      · rw [if_pos hk]
        refine .inr ⟨rfl, rfl, fun _ => ⟨hk, fun ha => ?_⟩, fun h8 => by omega⟩
        simpa [ha] using h
      · rw [if_neg hk]; exact .inl ⟨rfl, rfl⟩

theorem hdr_cases (P : Prop) [Decidable P] (o : Option (List Bytes)) (g : List Bytes → Item) :
    (if P then o.toList.map g else []) = [] ∨ ∃ h, P ∧ o = some h ∧ (if P then o.toList.map g else []) = [g h] := by
  by_cases hp : P
  · cases o with
    | none => exact .inl (by simp)
    | some h => exact .inr ⟨h, hp, rfl, by simp [hp]⟩
  · exact .inl (by simp [hp])

theorem planBody_good (c : Conf) (f : Fl) (e : Av) (he : e.Ok) (ha : asked c e = true) : Good c f e (planBody c f e) := by
  have hA := hdr_cases ((!f.aac && c.audio) = true) (e.codec.bind Codec.aacHeader) (Item.aacHdr e)
  have hV := hdr_cases ((!f.avc && (c.video || c.keyframes)) = true) (e.codec.bind Codec.avcHeader) (Item.avcHdr e)
  have hF := frame_cases (withHdrs c f e) e he
  change aacItems c f e = [] ∨ ∃ h, _ ∧ _ ∧ aacItems c f e = _ at hA
  change avcItems c f e = [] ∨ ∃ h, _ ∧ _ ∧ avcItems c f e = _ at hV
  have hsA : (aacItems c f e).Sublist ((e.codec.bind Codec.aacHeader).toList.map (Item.aacHdr e)) := by
    rcases hA with h | ⟨h, _, ho, h'⟩
    · rw [h]; exact List.nil_sublist _
    · rw [h', ho]; simp
  have hsV : (avcItems c f e).Sublist ((e.codec.bind Codec.avcHeader).toList.map (Item.avcHdr e)) := by
    rcases hV with h | ⟨h, _, ho, h'⟩
    · rw [h]; exact List.nil_sublist _
    · rw [h', ho]; simp
  have hsF : ((planFrame (withHdrs c f e) e).2).Sublist [.frame e] := by
    rcases hF with h | h
    · rw [h.1]; exact List.nil_sublist _
    · rw [h.1]; exact List.Sublist.refl _
  have hk : isStart (.frame e) = startsVideo e := rfl
  refine ⟨(hsA.append hsV).append hsF, ?_, ?_, ?_, ?_, ?_, ?_, ?_, ?_, ?_⟩ <;>
  rcases hA with hA | ⟨a, pa, oa, hA⟩ <;> rcases hV with hV | ⟨v, pv, ov, hV⟩ <;>
  rcases hF with ⟨hF, hF'⟩ | ⟨hF, hF', hF9, hF8⟩ <;>
  simp only [planBody, hA, hV, hF, hF', withHdrs, Bool.and_eq_true, Bool.not_eq_true'] at * <;>
  simp_all [okS, framesOf, isAacHdr, isAvcHdr, isStart, wantsAac, wantsAvc, wantsKey, nat, List.filter_cons]

theorem plan_good (c : Conf) (shift : Nat) (f : Fl) (e : Av) (he : e.Ok) : Good c f e (plan c shift f e) := by
  unfold plan
  by_cases hs : skips c f e = true
  · rw [if_pos hs]
    exact ⟨List.nil_sublist _, by simp [framesOf], trivial, trivial, trivial, by simp, by simp, by simp, by simp, by simp⟩
  · rw [if_neg hs]
    have ha : asked c e = true := by
      simp [skips] at hs; exact hs.2
    have hg := planBody_good c (start shift f e) e he ha
    have h1 : (start shift f e).aac = f.aac := by unfold start; split <;> rfl
    have h2 : (start shift f e).avc = f.avc := by unfold start; split <;> rfl
    have h3 : (start shift f e).key = f.key := by unfold start; split <;> rfl
    exact ⟨hg.order, hg.hAsked, h1 ▸ hg.aac, h2 ▸ hg.avc, h3 ▸ hg.key, h1 ▸ hg.aac', h2 ▸ hg.avc', h3 ▸ hg.key', h1 ▸ hg.cntAac, h2 ▸ hg.cntAvc⟩

/-- Many messages. -/
structure GoodRun (c : Conf) (f : Fl) (es : List Av) (r : Fl × List Item) : Prop where
  order : r.2.Sublist (es.flatMap sources)
  hAsked : ∀ x ∈ framesOf r.2, asked c x = true
  aac : okS isAacHdr wantsAac f.aac r.2
  avc : okS isAvcHdr wantsAvc f.avc r.2
  key : okS isStart wantsKey f.key r.2
  cntAac : (r.2.filter isAacHdr).length + nat f.aac = nat r.1.aac
  cntAvc : (r.2.filter isAvcHdr).length + nat f.avc = nat r.1.avc

theorem planRun_good (c : Conf) (shift : Nat) (es : List Av) (hes : ∀ e ∈ es, e.Ok) : ∀ f, GoodRun c f es (planRun c shift f es) := by
  induction es with
  | nil => intro f; exact ⟨List.nil_sublist _, by simp [planRun, framesOf], trivial, trivial, trivial, by simp [planRun], by simp [planRun]⟩
  | cons e es ih =>
    intro f
    have h1 := plan_good c shift f e (hes e (by simp))
    have h2 := ih (fun x hx => hes x (by simp [hx])) (plan c shift f e).1
    refine ⟨?_, ?_, ?_, ?_, ?_, ?_, ?_⟩
    · rw [List.flatMap_cons]; exact h1.order.append h2.order
    · simp only [planRun, framesOf_append, List.mem_append]
      rintro x (hx | hx)
      · exact h1.hAsked x hx
      · exact h2.hAsked x hx
    · simp only [planRun]; rw [okS_append, ← h1.aac']; exact ⟨h1.aac, h2.aac⟩
    · simp only [planRun]; rw [okS_append, ← h1.avc']; exact ⟨h1.avc, h2.avc⟩
    · simp only [planRun]; rw [okS_append, ← h1.key']; exact ⟨h1.key, h2.key⟩
    · have a := h1.cntAac; have b := h2.cntAac
      simp only [planRun, List.filter_append, List.length_append]; omega
    · have a := h1.cntAvc; have b := h2.cntAvc
      simp only [planRun, List.filter_append, List.length_append]; omega

/-- Headers needed are known. -/
def Known (e : Av) : Prop := (isH264 e = true → (e.codec.bind Codec.avcHeader).isSome) ∧ (isAac e = true → (e.codec.bind Codec.aacHeader).isSome)

theorem withHdrs_avc {c : Conf} {f : Fl} {e : Av} (hv : (c.video || c.keyframes) = true) (hk : (e.codec.bind Codec.avcHeader).isSome) :
    (withHdrs c f e).avc = true := by
  obtain ⟨h, hh⟩ := Option.isSome_iff_exists.1 hk
  cases hf : f.avc <;> simp [withHdrs, avcItems, hf, hv, hh]

theorem withHdrs_aac {c : Conf} {f : Fl} {e : Av} (hv : c.audio = true) (hk : (e.codec.bind Codec.aacHeader).isSome) :
    (withHdrs c f e).aac = true := by
  obtain ⟨h, hh⟩ := Option.isSome_iff_exists.1 hk
  cases hf : f.aac <;> simp [withHdrs, aacItems, hf, hv, hh]

theorem framesOf_hdrs (c : Conf) (f : Fl) (e : Av) : framesOf (aacItems c f e ++ avcItems c f e) = [] := by
  rw [framesOf_append]
  have hA := hdr_cases ((!f.aac && c.audio) = true) (e.codec.bind Codec.aacHeader) (Item.aacHdr e)
  have hV := hdr_cases ((!f.avc && (c.video || c.keyframes)) = true) (e.codec.bind Codec.avcHeader) (Item.avcHdr e)
  change aacItems c f e = [] ∨ ∃ h, _ ∧ _ ∧ aacItems c f e = _ at hA
  change avcItems c f e = [] ∨ ∃ h, _ ∧ _ ∧ avcItems c f e = _ at hV
  rcases hA with hA | ⟨_, _, _, hA⟩ <;> rcases hV with hV | ⟨_, _, _, hV⟩ <;> rw [hA, hV] <;> rfl

theorem framesOf_body (c : Conf) (f : Fl) (e : Av) : framesOf (planBody c f e).2 = framesOf (planFrame (withHdrs c f e) e).2 := by
  simp only [planBody]
  rw [framesOf_append, framesOf_hdrs, List.nil_append]

theorem asked8 {c : Conf} {e : Av} (h : e.type = 8) (ha : asked c e = true) : c.audio = true := by simpa [asked, h] using ha

theorem asked9 {c : Conf} {e : Av} (h : e.type = 9) (ha : asked c e = true) : (c.video || c.keyframes) = true := by
  simp [asked, h] at ha
  rcases ha with ha | ha <;> simp [ha]

/-- A message that is written. -/
theorem plan_frame (c : Conf) (shift : Nat) (f : Fl) (e : Av) (he : e.Ok) (ha : asked c e = true) (hs : skips c f e = false)
    (hk : e.type = 9 → (f.key || startsVideo e) = true ∧ (isH264 e = true → (e.codec.bind Codec.avcHeader).isSome))
    (haac : e.type = 8 → isAac e = true → (e.codec.bind Codec.aacHeader).isSome) :
    framesOf (plan c shift f e).2 = [e] ∧ (plan c shift f e).1.key = (f.key || startsVideo e) ∧ (plan c shift f e).1.cnt = true := by
  have h3 : (start shift f e).key = f.key := by unfold start; split <;> rfl
  have hp : plan c shift f e = planBody c (start shift f e) e := by simp [plan, hs]
  rw [hp, framesOf_body]
  have hw : (withHdrs c (start shift f e) e).key = f.key := h3
  have hfr : (planFrame (withHdrs c (start shift f e) e) e) = ({ withHdrs c (start shift f e) e with key := f.key || startsVideo e, cnt := true }, [.frame e]) := by
    unfold planFrame
    rcases he.hType with h8 | h9
    · have hsv : startsVideo e = false := by simp [startsVideo, h8]
      rw [if_neg (by omega), isAac_eq, if_neg, hsv, Bool.or_false, ← hw]
      cases hh : isAac e with
      | false => simp
      | true => simp [withHdrs_aac (f := start shift f e) (asked8 h8 ha) (haac h8 hh)]
    · have hk9 := hk h9
      rw [if_pos h9, isH264_eq, if_neg, hw, if_pos hk9.1]
      cases hh : isH264 e with
      | false => simp
      | true => simp [withHdrs_avc (f := start shift f e) (asked9 h9 ha) (hk9.2 hh)]
  simp only [planBody, hfr]
  exact ⟨rfl, trivial, trivial⟩

theorem plan_skip (c : Conf) (shift : Nat) (f : Fl) (e : Av) (ha : asked c e = false) : plan c shift f e = (f, []) := by
  simp [plan, skips, ha]

theorem planRun_after (c : Conf) (shift : Nat) (es : List Av) (hes : ∀ e ∈ es, e.Ok) (hk : ∀ e ∈ es, Known e) :
    ∀ f, f.key = true → f.cnt = true → framesOf (planRun c shift f es).2 = es.filter (asked c) := by
  induction es with
  | nil => intro f _ _; rfl
  | cons e es ih =>
    intro f hkey hcnt
    simp only [planRun, framesOf_append]
    cases ha : asked c e with
    | false =>
      rw [plan_skip c shift f e ha, List.filter_cons_of_neg (by simp [ha])]
      simpa [framesOf] using ih (fun x hx => hes x (by simp [hx])) (fun x hx => hk x (by simp [hx])) f hkey hcnt
    | true =>
      have hke := hk e (by simp)
      have h := plan_frame c shift f e (hes e (by simp)) ha (by simp [skips, hcnt, ha]) (fun _ => ⟨by simp [hkey], hke.1⟩) (fun _ => hke.2)
      rw [h.1, List.filter_cons_of_pos (by simp [ha]), ih (fun x hx => hes x (by simp [hx])) (fun x hx => hk x (by simp [hx])) _ (by rw [h.2.1, hkey]; rfl) h.2.2]
      rfl

theorem startsVideo_brk {c : Conf} {e : Av} (he : e.Ok) (h : startsVideo e = true) : brkOf c e = true := by
  simp [startsVideo] at h
  simp [brkOf, h.1.1, keyframe_eq he h.1.1, h.1.2]

theorem plan_audio (c : Conf) (hm : c.manual = false) (shift : Nat) (f : Fl) (e : Av) (he : e.Ok)
    (hk : isAac e = true → (e.codec.bind Codec.aacHeader).isSome) :
    (framesOf (plan c shift f e).2).filter (fun e => e.type = 8) = [e].filter (fun e => e.type = 8 && asked c e) := by
  cases ha : asked c e with
  | false => rw [plan_skip c shift f e ha]; simp [framesOf, ha]
  | true =>
    rcases he.hType with h8 | h9
    · rw [(plan_frame c shift f e he ha (by simp [skips, hm, ha]) (fun h9 => by omega) (fun _ => hk)).1]
      simp [h8, ha]
    · have hg := plan_good c shift f e he
      have : ∀ x ∈ framesOf (plan c shift f e).2, x = e := by
        intro x hx
        have hsub : ∀ is : List Item, x ∈ framesOf is → Item.frame x ∈ is := by
          intro is
          induction is with
          | nil => intro h; simp [framesOf] at h
          | cons i is ih =>
            intro h
            cases i with
            | frame y =>
              simp only [framesOf, List.mem_cons] at h
              rcases h with h | h
              · simp [h]
              · simp [ih h]
            | _ => simp only [framesOf] at h; simp [ih h]
        have := hg.order.subset (hsub _ hx)
        simpa [sources] using this
      rw [List.filter_eq_nil_iff.2, List.filter_eq_nil_iff.2]
      · simp; intro h; omega
      · intro x hx; rw [this x hx]; simp; omega

theorem planRun_audio (c : Conf) (hm : c.manual = false) (shift : Nat) (es : List Av) (hes : ∀ e ∈ es, e.Ok)
    (hk : ∀ e ∈ es, isAac e = true → (e.codec.bind Codec.aacHeader).isSome) :
    ∀ f, (framesOf (planRun c shift f es).2).filter (fun e => e.type = 8) = es.filter (fun e => e.type = 8 && asked c e) := by
  induction es with
  | nil => intro f; rfl
  | cons e es ih =>
    intro f
    simp only [planRun, framesOf_append]
    rw [List.filter_append, plan_audio c hm shift f e (hes e (by simp)) (hk e (by simp)),
      ih (fun x hx => hes x (by simp [hx])) (fun x hx => hk x (by simp [hx])), ← List.filter_append]
    rfl

/-- Flags of a file just opened. -/
def fl0 : Fl := ⟨false, false, false, false, false, 0⟩

theorem planRun_recording (c : Conf) (shift : Nat) (es : List Av) (hes : ∀ e ∈ es, e.Ok) : Recording c es (planRun c shift fl0 es).2 := by
  have hg := planRun_good c shift es hes fl0
  have hcount : ∀ (b : Bool) (n : Nat), n + nat false = nat b → n ≤ 1 := by
    intro b n h; cases b <;> simp [nat] at h <;> omega
  refine ⟨hg.order, hg.hAsked, ?_, ?_, ?_, ?_, ?_, ?_, ?_⟩
  · intro pre e post h h8 ha
    have h1 := hg.aac
    rw [h] at h1
    obtain ⟨j, hj, hs⟩ := okS_spec h1 (by simp [wantsAac, h8, ha])
    rcases List.mem_append.1 hj with hj | hj
    · cases j with
      | aacHdr e' h' => exact ⟨e', h', hj⟩
      | _ => simp [isAacHdr] at hs
    · rw [List.mem_singleton.1 hj] at hs; simp [isAacHdr] at hs
  · intro pre e post h h9 ha
    have h1 := hg.avc
    rw [h] at h1
    obtain ⟨j, hj, hs⟩ := okS_spec h1 (by simp [wantsAvc, h9, ha])
    rcases List.mem_append.1 hj with hj | hj
    · cases j with
      | avcHdr e' h' => exact ⟨e', h', hj⟩
      | _ => simp [isAvcHdr] at hs
    · rw [List.mem_singleton.1 hj] at hs; simp [isAvcHdr] at hs
  · intro pre e post h h9
    have h1 := hg.key
    rw [h] at h1
    obtain ⟨j, hj, hs⟩ := okS_spec h1 (by simp [wantsKey, h9])
    cases j with
    | frame k =>
      refine ⟨k, ?_, hs⟩
      have hsub : ∀ is : List Item, Item.frame k ∈ is → k ∈ framesOf is := by
        intro is
        induction is with
        | nil => intro h; simp at h
        | cons i is ih =>
          intro h
          rcases List.mem_cons.1 h with h | h
          · rw [← h]; simp [framesOf]
          · have h' := ih h
            cases i <;> simp [framesOf, h']
      have := hsub _ hj
      rw [framesOf_append] at this
      simpa [framesOf] using this
    | _ => simp [isStart] at hs
  · have := hcount _ _ hg.cntAac
    refine Nat.le_trans (Nat.le_of_eq ?_) this
    congr 1
  · have := hcount _ _ hg.cntAvc
    refine Nat.le_trans (Nat.le_of_eq ?_) this
    congr 1
  · intro hk pre k post h hs ha
    subst h
    have hok : k.Ok := hes k (by simp)
    rw [planRun_append]
    simp only [planRun]
    have h9 : k.type = 9 := by simp [startsVideo] at hs; exact hs.1.1
    have hf := plan_frame c shift (planRun c shift fl0 pre).1 k hok ha (by simp [skips, startsVideo_brk hok hs, ha])
      (fun _ => ⟨by simp [hs], (hk k (by simp)).1⟩) (fun h8 => by omega)
    refine ⟨framesOf (planRun c shift fl0 pre).2, ?_⟩
    rw [framesOf_append, framesOf_append, hf.1, planRun_after c shift post (fun x hx => hes x (by simp [hx])) (fun x hx => hk x (by simp [hx])) _
      (by rw [hf.2.1, hs]; simp) hf.2.2, List.filter_cons_of_pos (by simp [ha])]
    rfl
  · intro hm hk
    exact planRun_audio c hm shift es hes hk fl0

end Verif.Rec
