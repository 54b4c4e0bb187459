import Verif.Lemmas.Function
/-! # Lemmas about Python's argument binding -/
namespace Bindgen
open Spec

theorem flatMap_filter_one {α β : Type} (c : α → Bool) (g : α → List β) (l : List α) (h : (l.filter c).length ≤ 1)
    {a : α} (ha : a ∈ l) (hc : c a = true) : l.flatMap (fun e => if c e = true then g e else []) = g a := by
  rw [flatMap_one c g l h]
  have hm : a ∈ l.filter c := List.mem_filter.mpr ⟨ha, hc⟩
  cases hf : l.find? c with
  | none => exact absurd hc (by simpa using List.find?_eq_none.mp hf a ha)
  | some b =>
    have hb : b ∈ l.filter c := List.mem_filter.mpr ⟨List.mem_of_find?_eq_some hf, List.find?_some hf⟩
    have : a = b := by
      match hl : l.filter c, h with
      | [], _ => rw [hl] at hm; simp at hm
      | [x], _ =>
        rw [hl] at hm hb
        rw [List.mem_singleton] at hm hb
        rw [hm, hb]
      | _ :: _ :: _, h => simp at h
    rw [this]

theorem flatMap_filter_none {α β : Type} (c : α → Bool) (g : α → List β) (l : List α) (h : ∀ a ∈ l, c a = false) :
    l.flatMap (fun e => if c e = true then g e else []) = [] := by
  rw [List.flatMap_eq_nil_iff]
  intro a ha
  rw [h a ha]; rfl

theorem starVals_eq {A : List Arg} (h : (A.filter (fun a => a.kind = .varPositional)).length ≤ 1) {a : Arg} (ha : a ∈ A)
    (hk : a.kind = .varPositional) : starVals A = (elems a.val).getD [] := by
  have := flatMap_filter_one (fun a : Arg => decide (a.kind = .varPositional)) (fun a => (elems a.val).getD []) A h ha (by simpa using hk)
  simp only [decide_eq_true_eq] at this
  exact this

theorem starVals_nil {A : List Arg} (h : ∀ a ∈ A, a.kind ≠ .varPositional) : starVals A = [] := by
  have := flatMap_filter_none (fun a : Arg => decide (a.kind = .varPositional)) (fun a => (elems a.val).getD []) A (by simpa using h)
  simp only [decide_eq_true_eq] at this
  exact this

theorem starStarVals_eq {A : List Arg} (h : (A.filter (fun a => a.kind = .varKeyword)).length ≤ 1) {a : Arg} (ha : a ∈ A)
    (hk : a.kind = .varKeyword) : starStarVals A = (entries a.val).getD [] := by
  have := flatMap_filter_one (fun a : Arg => decide (a.kind = .varKeyword)) (fun a => (entries a.val).getD []) A h ha (by simpa using hk)
  simp only [decide_eq_true_eq] at this
  exact this

theorem starStarVals_nil {A : List Arg} (h : ∀ a ∈ A, a.kind ≠ .varKeyword) : starStarVals A = [] := by
  have := flatMap_filter_none (fun a : Arg => decide (a.kind = .varKeyword)) (fun a => (entries a.val).getD []) A (by simpa using h)
  simp only [decide_eq_true_eq] at this
  exact this

theorem bindLookup_none_of {d : List (Str × PyVal)} {k : Str} (h : k ∉ d.map Prod.fst) : d.lookup k = none := by
  rw [List.lookup_eq_none_iff]
  intro e he
  have : k ≠ e.1 := fun hc => h (List.mem_map.mpr ⟨e, he, hc.symm⟩)
  simpa using this

theorem lookup_append (d e : List (Str × PyVal)) (k : Str) : (d ++ e).lookup k = (d.lookup k).or (e.lookup k) := by
  induction d with
  | nil => rfl
  | cons a d ih =>
    obtain ⟨x, v⟩ := a
    rw [List.cons_append]
    by_cases h : k = x
    · subst h; rw [lookup_cons_eq, lookup_cons_eq]; rfl
    · rw [lookup_cons_ne h, lookup_cons_ne h, ih]

theorem keywordVals_lookup {A : List Arg} (hnd : (A.map Arg.name).Nodup) {a : Arg} (ha : a ∈ A)
    (hk : a.kind = .keywordOnly) : (keywordVals A).lookup a.name = some a.val := by
  induction A with
  | nil => cases ha
  | cons b A ih =>
    rw [List.map_cons, List.nodup_cons] at hnd
    rcases List.mem_cons.mp ha with rfl | ha
    · rw [keywordVals, List.filter_cons_of_pos (by simpa using hk), List.map_cons, lookup_cons_eq]
    · have hne : a.name ≠ b.name := fun hc => hnd.1 (List.mem_map.mpr ⟨a, ha, hc⟩)
      by_cases hb : b.kind = .keywordOnly
      · rw [keywordVals, List.filter_cons_of_pos (by simpa using hb), List.map_cons, lookup_cons_ne hne]
        exact ih hnd.2 ha
      · rw [keywordVals, List.filter_cons_of_neg (by simpa using hb)]
        exact ih hnd.2 ha

theorem keywordVals_keys_nodup {A : List Arg} (hnd : (A.map Arg.name).Nodup) : ((keywordVals A).map Prod.fst).Nodup := by
  rw [keywordVals, List.map_map]
  exact hnd.sublist ((List.filter_sublist).map _)

theorem eq_of_name {A : List Arg} (hnd : (A.map Arg.name).Nodup) {a b : Arg} (ha : a ∈ A) (hb : b ∈ A)
    (h : a.name = b.name) : a = b := List.inj_on_of_nodup_map hnd ha hb h

/-- Python accepts the call with all values in their places and binds every parameter to its value. -/
theorem bind_spec {ps : List PyParam} {A : List Arg}
    (hA : ps.map (fun p => (p.name, p.kind)) = A.map (fun a => (a.name, a.kind)))
    (hnd : (ps.map PyParam.name).Nodup) (h1 : (ps.filter (fun p => p.kind = .varPositional)).length ≤ 1)
    (h2 : (ps.filter (fun p => p.kind = .varKeyword)).length ≤ 1)
    (hdis : ∀ k ∈ (starStarVals A).map Prod.fst, k ∉ keywordNames ps) :
    Spec.bind ps (positionalVals A ++ starVals A) (starStarVals A ++ keywordVals A) =
      some (A.map (fun a => (a.name, boundTo a.kind a.val))) := by
  have hnames : ps.map PyParam.name = A.map Arg.name := by
    have := congrArg (List.map Prod.fst) hA
    simpa [List.map_map, Function.comp_def] using this
  have hkinds : ps.map PyParam.kind = A.map Arg.kind := by
    have := congrArg (List.map Prod.snd) hA
    simpa [List.map_map, Function.comp_def] using this
  have hndA : (A.map Arg.name).Nodup := by rw [← hnames]; exact hnd
  have hcount : ∀ c : ParamKind → Bool, (ps.filter (fun p => c p.kind)).length = (A.filter (fun a => c a.kind)).length := by
    intro c
    have := congrArg (fun l => (List.filter c l).length) hkinds
    simpa [List.filter_map, Function.comp_def] using this
  have h1A : (A.filter (fun a => a.kind = .varPositional)).length ≤ 1 := by
    rw [← hcount (fun k => decide (k = .varPositional))]; exact h1
  have h2A : (A.filter (fun a => a.kind = .varKeyword)).length ≤ 1 := by
    rw [← hcount (fun k => decide (k = .varKeyword))]; exact h2
  have hpc : (positionalVals A).length = positionalCount ps := by
    rw [positionalVals, List.length_map, positionalCount,
      hcount (fun k => decide (k = .positionalOnly) || decide (k = .positionalOrKeyword))]
  have hkn : keywordNames ps = (A.filter (fun a => a.kind = .positionalOrKeyword || a.kind = .keywordOnly)).map Arg.name := by
    have := congrArg (fun l : List (Str × ParamKind) =>
      (l.filter (fun e => e.2 = .positionalOrKeyword || e.2 = .keywordOnly)).map Prod.fst) hA
    simpa [List.filter_map, List.map_map, Function.comp_def, keywordNames] using this
  have hmemK : ∀ k : ParamKind, (∀ p ∈ ps, p.kind ≠ k) ↔ ∀ a ∈ A, a.kind ≠ k := by
    intro k
    have h : (k ∉ ps.map PyParam.kind) ↔ k ∉ A.map Arg.kind := by rw [hkinds]
    simpa [List.mem_map, not_exists, not_and] using h
  -- the keyword arguments of a keyword-only parameter are named
  have hkwnames : ∀ e ∈ keywordVals A, e.1 ∈ keywordNames ps := by
    intro e he
    obtain ⟨a, ha, rfl⟩ := List.mem_map.mp he
    rw [hkn]
    have := List.mem_filter.mp ha
    exact List.mem_map.mpr ⟨a, List.mem_filter.mpr ⟨this.1, by simpa using Or.inr (by simpa using this.2)⟩, rfl⟩
  unfold Spec.bind
  rw [if_neg, if_neg]
  rotate_left
  · rintro ⟨hno, e, he, hne⟩
    rw [starStarVals_nil ((hmemK _).mp hno), List.nil_append] at he
    exact hne (hkwnames e he)
  · rintro ⟨hgt, hno⟩
    rw [starVals_nil ((hmemK _).mp hno), List.append_nil, hpc] at hgt
    exact absurd hgt (by omega)
  have hextra : (positionalVals A ++ starVals A).drop (positionalCount ps) = starVals A := by
    rw [← hpc, List.drop_left]
  rw [hextra]
  -- walk along the parameters
  have key : ∀ (ps2 : List PyParam) (A2 : List Arg), (∀ a ∈ A2, a ∈ A) →
      ps2.map (fun p => (p.name, p.kind)) = A2.map (fun a => (a.name, a.kind)) →
      bindGo ps (starVals A) (starStarVals A ++ keywordVals A) ps2 (positionalVals A2 ++ starVals A) =
        some (A2.map (fun a => (a.name, boundTo a.kind a.val))) := by
    intro ps2
    induction ps2 with
    | nil =>
      intro A2 _ h
      cases A2 with
      | nil => rfl
      | cons => simp at h
    | cons p ps2 ih =>
      intro A2 hsub h
      cases A2 with
      | nil => simp at h
      | cons a A2 =>
        rw [List.map_cons, List.map_cons, List.cons.injEq, Prod.mk.injEq] at h
        obtain ⟨⟨hn, hk⟩, h⟩ := h
        have haA := hsub a (by simp)
        have ih' := ih A2 (fun b hb => hsub b (by simp [hb])) h
        -- no keyword argument is named like a positional parameter
        have hno : a.kind = .positionalOrKeyword → (starStarVals A ++ keywordVals A).lookup a.name = none := by
          intro hka
          apply bindLookup_none_of
          rw [List.map_append, List.mem_append, not_or]
          constructor
          · intro hm
            refine hdis _ hm ?_
            rw [hkn]
            exact List.mem_map.mpr ⟨a, List.mem_filter.mpr ⟨haA, by simp [hka]⟩, rfl⟩
          · intro hm
            rw [keywordVals, List.map_map] at hm
            obtain ⟨b, hb, hbn⟩ := List.mem_map.mp hm
            have hb := List.mem_filter.mp hb
            have := eq_of_name hndA hb.1 haA hbn
            subst this
            rw [hka] at hb
            simp at hb
        have hyes : a.kind = .keywordOnly → (starStarVals A ++ keywordVals A).lookup a.name = some a.val := by
          intro hka
          rw [lookup_append, keywordVals_lookup hndA haA hka, bindLookup_none_of]
          · rfl
          · intro hm
            refine hdis _ hm ?_
            rw [hkn]
            exact List.mem_map.mpr ⟨a, List.mem_filter.mpr ⟨haA, by simp [hka]⟩, rfl⟩
        by_cases hpos : a.kind = .positionalOnly ∨ a.kind = .positionalOrKeyword
        · have hpv : positionalVals (a :: A2) = a.val :: positionalVals A2 := by
            rw [positionalVals, List.filter_cons_of_pos (by simpa using hpos)]; rfl
          rw [bindGo, if_pos (by rw [hk]; exact hpos), hpv, List.cons_append, List.head?_cons, List.tail_cons, ih']
          have hb : bindOne ps (starVals A) (starStarVals A ++ keywordVals A) p (some a.val) = some (.val a.val) := by
            unfold bindOne
            rcases hpos with hka | hka
            · rw [hk, hka]
            · rw [hk, hka, hn, hno hka]
          have hbt : boundTo a.kind a.val = .val a.val := by
            rcases hpos with hka | hka <;> rw [hka] <;> rfl
          rw [hb, List.map_cons, hbt, hn]; rfl
        · have hpv : positionalVals (a :: A2) = positionalVals A2 := by
            rw [positionalVals, List.filter_cons_of_neg (by simpa using hpos)]; rfl
          rw [bindGo, if_neg (by rw [hk]; exact hpos), hpv, ih']
          have hb : bindOne ps (starVals A) (starStarVals A ++ keywordVals A) p none = some (boundTo a.kind a.val) := by
            unfold bindOne
            rw [hk]
            cases hka : a.kind
            · exact absurd (Or.inl hka) hpos
            · exact absurd (Or.inr hka) hpos
            · simp only [boundTo]; rw [starVals_eq h1A haA hka]
            · simp only [boundTo]; rw [hn, hyes hka]
            · simp only [boundTo]
              rw [List.filter_append, List.filter_eq_self.mpr, List.filter_eq_nil_iff.mpr, List.append_nil,
                starStarVals_eq h2A haA hka]
              · intro e he
                simp [hkwnames e he]
              · intro e he
                have := hdis e.1 (List.mem_map.mpr ⟨e, he, rfl⟩)
                simpa using this
          rw [hb, List.map_cons, hn]; rfl
  exact key ps A (fun a ha => ha) hA

end Bindgen
