import Verif.Lemmas.ModuleParse
import Verif.Lemmas.Canon
import Verif.Spec.Deps
import Verif.Lemmas.Checks
/-! # Lemmas about dependencies -/
namespace Bindgen
open Spec

theorem mem_unique {α : Type} [DecidableEq α] {l : List α} {a : α} : a ∈ unique l ↔ a ∈ l := by
  induction l with
  | nil => exact Iff.rfl
  | cons b l ih =>
    rw [unique, List.mem_cons, List.mem_cons, List.mem_filter, ih]
    by_cases h : a = b <;> simp [h]

theorem unique_nodup {α : Type} [DecidableEq α] (l : List α) : (unique l).Nodup := by
  induction l with
  | nil => exact List.nodup_nil
  | cons b l ih =>
    rw [unique, List.nodup_cons]
    exact ⟨by simp, ih.filter _⟩

theorem filter_unique {α : Type} [DecidableEq α] (p : α → Bool) (l : List α) : (unique l).filter p = unique (l.filter p) := by
  induction l with
  | nil => rfl
  | cons a l ih =>
    rw [unique]
    by_cases h : p a = true
    · rw [List.filter_cons_of_pos h, List.filter_cons_of_pos h, unique, List.filter_filter, ← ih, List.filter_filter]
      congr 1
      refine List.filter_congr fun x _ => ?_
      rw [Bool.and_comm]
    · rw [List.filter_cons_of_neg h, List.filter_cons_of_neg h, List.filter_filter, ← ih]
      refine List.filter_congr fun x _ => ?_
      by_cases hx : p x = true
      · have : x ≠ a := by rintro rfl; exact h hx
        simp [hx, this]
      · simp [hx]

/-- What has been seen before adds nothing. -/
theorem unique_append {α : Type} [DecidableEq α] (l l' : List α) (h : ∀ a ∈ l', a ∈ l) : unique (l ++ l') = unique l := by
  generalize hn : l.length = n
  induction n using Nat.strongRecOn generalizing l l' with
  | _ n ih =>
    cases l with
    | nil =>
      cases l' with
      | nil => rfl
      | cons a l' => exact absurd (h a (by simp)) (by simp)
    | cons a l =>
      rw [List.cons_append, unique, unique, filter_unique, filter_unique, List.filter_append]
      congr 1
      refine ih (l.filter _).length ?_ _ _ ?_ rfl
      · have := List.length_filter_le (fun x => decide (x ≠ a)) l
        simp only [List.length_cons] at hn
        omega
      · intro x hx
        obtain ⟨h1, h2⟩ := List.mem_filter.mp hx
        refine List.mem_filter.mpr ⟨?_, h2⟩
        rcases List.mem_cons.mp (h x h1) with rfl | h3
        · simp at h2
        · exact h3

/-- What the walk over the imports adds does not depend on the modules already there. -/
theorem depFold_append {E : Env} {cfg : Config} {W : World} {fuel : Nat} {l : List Path} {seen seen' : List Str}
    {ms ms' : List Module} (h : foldRes (depStep E cfg W fuel) (seen, ms) l = .ok (seen', ms')) :
    ∃ deps, ms' = ms ++ deps ∧ ∀ ns, foldRes (depStep E cfg W fuel) (seen, ns) l = .ok (seen', ns ++ deps) := by
  induction l generalizing seen ms with
  | nil => cases h; exact ⟨[], by simp, fun ns => by simp [foldRes]⟩
  | cons o l ih =>
    rw [foldRes] at h
    obtain ⟨⟨s1, m1⟩, h1, h⟩ := Res.bind_ok h
    have hstep : ∃ d, m1 = ms ++ d ∧ ∀ ns, depStep E cfg W fuel (seen, ns) o = .ok (s1, ns ++ d) := by
      unfold depStep at h1 ⊢
      obtain ⟨id, hid, h1⟩ := Res.bind_ok h1
      obtain ⟨pm, hpm, h1⟩ := Res.bind_ok h1
      obtain ⟨nm, hnm, h1⟩ := Res.bind_ok h1
      simp only [hid, hpm, hnm, Res.ok_bind]
      simp only at h1
      split at h1
      · rename_i hs
        cases h1
        exact ⟨[], by simp, fun ns => by rw [if_pos hs]; simp [Res.pure_eq]⟩
      · rename_i hs
        obtain ⟨_, hk, h1⟩ := Res.bind_ok h1
        split at h1
        · rename_i ha
          obtain ⟨parsed, hp, h1⟩ := Res.bind_ok h1
          cases h1
          refine ⟨[parsed], rfl, fun ns => ?_⟩
          rw [if_neg hs, hk, Res.ok_bind, if_pos ha, hp]
          rfl
        · rename_i ha
          cases h1
          refine ⟨[], by simp, fun ns => ?_⟩
          rw [if_neg hs, hk, Res.ok_bind, if_neg ha]
          simp [Res.pure_eq]
    obtain ⟨d, rfl, hd⟩ := hstep
    obtain ⟨deps, rfl, hdeps⟩ := ih h
    refine ⟨d ++ deps, by simp, fun ns => ?_⟩
    rw [foldRes, hd, Res.ok_bind, hdeps]
    simp

theorem follow_iff {W : World} {id : Nat} {l : List Ident} {r : Nat} : Follow W id l r ↔ walkModules W id l = r := by
  induction l generalizing id with
  | nil =>
    constructor
    · intro h; cases h; rfl
    · rintro rfl; exact .done _
  | cons i l ih =>
    constructor
    · intro h
      cases h with
      | step h1 h2 h3 h4 =>
        rw [walkModules, h1]
        simp only [Option.bind_some, h2, h3]
        exact ih.mp h4
      | stop h =>
        rw [walkModules]
        cases h1 : W.get? r with
        | none => rfl
        | some m =>
          simp only [Option.bind_some]
          cases h2 : m.getattr i.asPy with
          | none => rfl
          | some a => simp only [Option.bind_some, h m a h1 h2]
    · intro h
      rw [walkModules] at h
      cases h1 : W.get? id with
      | none =>
        rw [h1] at h
        subst h
        exact .stop (fun m a hm => by rw [h1] at hm; cases hm)
      | some m =>
        rw [h1] at h
        simp only [Option.bind_some] at h
        cases h2 : m.getattr i.asPy with
        | none =>
          rw [h2] at h
          subst h
          exact .stop (fun m' a hm ha => by rw [h1] at hm; cases hm; rw [h2] at ha; cases ha)
        | some a =>
          rw [h2] at h
          simp only [Option.bind_some] at h
          cases h3 : a.mod with
          | none =>
            rw [h3] at h
            subst h
            exact .stop (fun m' a' hm ha => by rw [h1] at hm; cases hm; rw [h2] at ha; cases ha; exact h3)
          | some id' =>
            rw [h3] at h
            exact .step h1 h2 h3 (ih.mpr h)

theorem lastModule_iff {W : World} {o : Path} {id : Nat} : lastModule W o = .ok id ↔ ComesFrom W o id := by
  unfold lastModule ComesFrom
  cases hs : o.segs with
  | nil =>
    have : o.root = none := by unfold Path.root; rw [hs]
    rw [this]
    constructor
    · intro h; cases h
    · rintro ⟨i, rest, root, h, -⟩; cases h
  | cons i rest =>
    have : o.root = some ⟨o.leadingColon, [i]⟩ := by unfold Path.root; rw [hs]
    rw [this]
    have hp : (⟨o.leadingColon, [i]⟩ : Path).toPy = (Path.ofIdent i).toPy := rfl
    simp only [Res.ofOption, Res.ok_bind, hp, List.drop_one, List.tail_cons]
    cases hr : W.importMod (Path.ofIdent i).toPy with
    | none =>
      constructor
      · intro h; cases h
      · rintro ⟨i', rest', root, h, h', -⟩
        cases h
        rw [hr] at h'
        cases h'
    | some root =>
      simp only [Res.ok_bind]
      constructor
      · intro h
        cases h
        exact ⟨i, rest, root, rfl, hr, follow_iff.mpr rfl⟩
      · rintro ⟨i', rest', root', h, h', h2⟩
        cases h
        rw [hr] at h'
        cases h'
        rw [follow_iff.mp h2]
        rfl

mutual
theorem externalImports_mem {m : Module} {i : Import} :
    i ∈ m.externalImports ↔ (i ∈ m.imports ∨ ∃ k, InTree k m.submodules ∧ i ∈ k.imports) ∧ i.isExternal = true := by
  match m with
  | ⟨_, _, imports, subs, _, _, _, _, _, _, _⟩ =>
    rw [Module.externalImports, List.mem_append, List.mem_filter, externalImportsList_mem]
    tauto
theorem externalImportsList_mem {l : List Module} {i : Import} :
    i ∈ externalImportsList l ↔ (∃ k, InTree k l ∧ i ∈ k.imports) ∧ i.isExternal = true := by
  match l with
  | [] =>
    rw [externalImportsList]
    constructor
    · intro h; cases h
    · rintro ⟨⟨k, hk, -⟩, -⟩
      obtain ⟨s, hs, -⟩ := inTree_mem hk
      cases hs
  | m :: l =>
    rw [externalImportsList, List.mem_append, externalImports_mem, externalImportsList_mem]
    constructor
    · rintro (⟨h | ⟨k, hk, hi⟩, hx⟩ | ⟨⟨k, hk, hi⟩, hx⟩)
      · exact ⟨⟨m, .top (by simp), h⟩, hx⟩
      · exact ⟨⟨k, .sub (List.mem_cons_self) hk, hi⟩, hx⟩
      · refine ⟨⟨k, ?_, hi⟩, hx⟩
        cases hk with
        | top h => exact .top (by simp [h])
        | sub h h' => exact .sub (List.mem_cons_of_mem _ h) h'
    · rintro ⟨⟨k, hk, hi⟩, hx⟩
      cases hk with
      | top h =>
        rcases List.mem_cons.mp h with rfl | h
        · exact Or.inl ⟨Or.inl hi, hx⟩
        · exact Or.inr ⟨⟨k, .top h, hi⟩, hx⟩
      | sub h h' =>
        rcases List.mem_cons.mp h with rfl | h
        · exact Or.inl ⟨Or.inr ⟨k, h', hi⟩, hx⟩
        · exact Or.inr ⟨⟨k, .sub h h', hi⟩, hx⟩
end

theorem origins_mem {l : List Module} {o : Path} :
    o ∈ unique ((externalImportsList l).map Import.origin) ↔ ImportedFrom l o := by
  rw [mem_unique, List.mem_map]
  unfold ImportedFrom
  constructor
  · rintro ⟨i, hi, rfl⟩
    obtain ⟨⟨k, hk, hi⟩, hx⟩ := externalImportsList_mem.mp hi
    exact ⟨k, i, hk, hi, by simpa [Import.isExternal] using hx, rfl⟩
  · rintro ⟨k, i, hk, hi, hx, rfl⟩
    exact ⟨i, externalImportsList_mem.mpr ⟨⟨k, hk, hi⟩, by simpa [Import.isExternal] using hx⟩, rfl⟩

/-! ## One dependency -/

theorem called_unique {W : World} {id : Nat} {n n' : Str} (h : Called W id n) (h' : Called W id n') : n = n' := by
  obtain ⟨m, hm, hn⟩ := h
  obtain ⟨m', hm', hn'⟩ := h'
  rw [hm] at hm'
  cases hm'
  rw [hn] at hn'
  cases hn'
  rfl

theorem comesFrom_unique {W : World} {o : Path} {id id' : Nat} (h : ComesFrom W o id) (h' : ComesFrom W o id') : id = id' := by
  have h := lastModule_iff.mpr h
  rw [lastModule_iff.mpr h'] at h
  cases h
  rfl

theorem checkDep_ok {E : Env} {W : World} {id : Nat} {m : PyMod} {n : Str} (hm : W.get? id = some m) :
    checkDep E m n = .ok () ↔ NotRejected E W id n := by
  unfold checkDep
  constructor
  · intro h hd
    obtain ⟨_, h1, h2⟩ := Res.bind_ok h
    refine ⟨fun hn => (identCheck_ok E _).mp h1 hd (by simp [hn]), fun m' hm' => ?_⟩
    rw [hm] at hm'
    cases hm'
    exact (pathCheck_ok E _).mp h2 hd _ (List.mem_singleton.mpr rfl)
  · intro h
    rw [(identCheck_ok E _).mpr fun hd hm => (h hd).1 (List.mem_singleton.mp hm).symm, Res.ok_bind]
    exact noColons_check fun hd => (h hd).2 m hm

theorem depStep_ok {E : Env} {cfg : Config} {W : World} {fuel : Nat} {st st' : List Str × List Module} {o : Path}
    (h : depStep E cfg W fuel st o = .ok st') :
    ∃ id n, ComesFrom W o id ∧ Called W id n ∧
      ((n ∈ st.1 ∧ st' = st) ∨
       (n ∉ st.1 ∧ NotRejected E W id n ∧ ¬ Admitted E cfg W id n ∧ st' = (st.1 ++ [n], st.2)) ∨
       (n ∉ st.1 ∧ NotRejected E W id n ∧ Admitted E cfg W id n ∧
         ∃ d, Module.parse E cfg W fuel id = .ok d ∧ st' = (st.1 ++ [n], st.2 ++ [d]))) := by
  unfold depStep at h
  obtain ⟨id, h1, h⟩ := Res.bind_ok h
  obtain ⟨pm, h2, h⟩ := Res.bind_ok h
  obtain ⟨n, h3, h⟩ := Res.bind_ok h
  have g2 : W.get? id = some pm := by
    cases hg : W.get? id with
    | none => rw [hg] at h2; cases h2
    | some x => rw [hg] at h2; cases h2; rfl
  have g3 : pm.name = some n := by
    cases hg : pm.name with
    | none => rw [hg] at h3; cases h3
    | some x => rw [hg] at h3; cases h3; rfl
  refine ⟨id, n, lastModule_iff.mp h1, ⟨pm, g2, g3⟩, ?_⟩
  split at h
  · rename_i hc
    cases h
    exact Or.inl ⟨by simpa using hc, rfl⟩
  · rename_i hc
    have hc : n ∉ st.1 := by simpa using hc
    obtain ⟨_, hk, h⟩ := Res.bind_ok h
    have hk := (checkDep_ok g2).mp hk
    split at h
    · rename_i ha
      obtain ⟨d, hd, h⟩ := Res.bind_ok h
      cases h
      exact Or.inr (Or.inr ⟨hc, hk, ⟨pm, g2, ha⟩, d, hd, rfl⟩)
    · rename_i ha
      cases h
      refine Or.inr (Or.inl ⟨hc, hk, ?_, rfl⟩)
      rintro ⟨m, hm, hm'⟩
      rw [g2] at hm
      cases hm
      exact ha hm'

theorem depStep_exists {E : Env} {cfg : Config} {W : World} {fuel : Nat} (st : List Str × List Module) {o : Path} {id : Nat}
    {n : Str} (h1 : ComesFrom W o id) (h2 : Called W id n) (hk : NotRejected E W id n)
    (h3 : Admitted E cfg W id n → ∃ d, Module.parse E cfg W fuel id = .ok d) :
    ∃ st', depStep E cfg W fuel st o = .ok st' := by
  obtain ⟨pm, g2, g3⟩ := h2
  unfold depStep
  rw [lastModule_iff.mpr h1]
  simp only [Res.ok_bind, g2, g3, Res.ofOption]
  split
  · exact ⟨_, rfl⟩
  · rw [(checkDep_ok g2).mpr hk, Res.ok_bind]
    split
    · rename_i ha
      obtain ⟨d, hd⟩ := h3 ⟨pm, g2, ha⟩
      rw [hd]
      exact ⟨_, rfl⟩
    · exact ⟨_, rfl⟩

/-! ## All dependencies -/

/-- A dependency that has been added: its handle, its name, the parsed module. -/
abbrev Dep := Nat × Str × Module

theorem deps_fold {E : Env} {cfg : Config} {W : World} {fuel : Nat} {origins : List Path} {st st' : List Str × List Module}
    (h : foldRes (depStep E cfg W fuel) st origins = .ok st') :
    ∃ deps : List Dep, st'.2 = st.2 ++ deps.map (·.2.2) ∧ (deps.map (·.2.1)).Nodup ∧
      (∀ d ∈ deps, d.2.1 ∉ st.1 ∧ Called W d.1 d.2.1 ∧ Admitted E cfg W d.1 d.2.1 ∧
        Module.parse E cfg W fuel d.1 = .ok d.2.2 ∧ ∃ o ∈ origins, ComesFrom W o d.1) ∧
      ∀ o ∈ origins, ∃ id n, ComesFrom W o id ∧ Called W id n ∧
        (n ∈ st.1 ∨ ∃ id' o', o' ∈ origins ∧ ComesFrom W o' id' ∧ Called W id' n ∧ NotRejected E W id' n ∧
          (Admitted E cfg W id' n → ∃ d ∈ deps, d.1 = id')) := by
  induction origins generalizing st with
  | nil => cases h; exact ⟨[], by simp, by simp, by simp, by simp⟩
  | cons o origins ih =>
    rw [foldRes] at h
    obtain ⟨st1, h1, h⟩ := Res.bind_ok h
    obtain ⟨deps, e1, e2, e3, e4⟩ := ih h
    obtain ⟨id, n, hid, hn, hs⟩ := depStep_ok h1
    rcases hs with ⟨hns, rfl⟩ | ⟨hns, hk, hna, rfl⟩ | ⟨hns, hk, hna, d, hd, rfl⟩
    · refine ⟨deps, e1, e2, ?_, ?_⟩
      · intro d hd
        obtain ⟨a1, a2, a3, a4, o', ho', a5⟩ := e3 d hd
        exact ⟨a1, a2, a3, a4, o', by simp [ho'], a5⟩
      · intro o' ho'
        rcases List.mem_cons.mp ho' with rfl | ho'
        · exact ⟨id, n, hid, hn, Or.inl hns⟩
        · obtain ⟨id', n', a1, a2, a3⟩ := e4 o' ho'
          refine ⟨id', n', a1, a2, ?_⟩
          rcases a3 with a3 | ⟨id2, o2, b1, b2⟩
          · exact Or.inl a3
          · exact Or.inr ⟨id2, o2, by simp [b1], b2⟩
    · refine ⟨deps, e1, e2, ?_, ?_⟩
      · intro d hd
        obtain ⟨a1, a2, a3, a4, o', ho', a5⟩ := e3 d hd
        exact ⟨fun h => a1 (by simp [h]), a2, a3, a4, o', by simp [ho'], a5⟩
      · intro o' ho'
        rcases List.mem_cons.mp ho' with rfl | ho'
        · exact ⟨id, n, hid, hn, Or.inr ⟨id, o', by simp, hid, hn, hk, fun h => absurd h hna⟩⟩
        · obtain ⟨id', n', a1, a2, a3⟩ := e4 o' ho'
          refine ⟨id', n', a1, a2, ?_⟩
          rcases a3 with a3 | ⟨id2, o2, b1, b2⟩
          · simp only [List.mem_append, List.mem_singleton] at a3
            rcases a3 with a3 | rfl
            · exact Or.inl a3
            · exact Or.inr ⟨id, o, by simp, hid, hn, hk, fun h => absurd h hna⟩
          · exact Or.inr ⟨id2, o2, by simp [b1], b2⟩
    · refine ⟨(id, n, d) :: deps, by rw [e1]; simp, ?_, ?_, ?_⟩
      · rw [List.map_cons, List.nodup_cons]
        refine ⟨?_, e2⟩
        intro hm
        obtain ⟨x, hx, he⟩ := List.mem_map.mp hm
        exact (e3 x hx).1 (by simp [he])
      · intro x hx
        rcases List.mem_cons.mp hx with rfl | hx
        · exact ⟨hns, hn, hna, hd, o, by simp, hid⟩
        · obtain ⟨a1, a2, a3, a4, o', ho', a5⟩ := e3 x hx
          exact ⟨fun h => a1 (by simp [h]), a2, a3, a4, o', by simp [ho'], a5⟩
      · intro o' ho'
        rcases List.mem_cons.mp ho' with rfl | ho'
        · exact ⟨id, n, hid, hn, Or.inr ⟨id, o', by simp, hid, hn, hk, fun _ => ⟨(id, n, d), by simp, rfl⟩⟩⟩
        · obtain ⟨id', n', a1, a2, a3⟩ := e4 o' ho'
          refine ⟨id', n', a1, a2, ?_⟩
          rcases a3 with a3 | ⟨id2, o2, b1, b2, b3, bk, b4⟩
          · simp only [List.mem_append, List.mem_singleton] at a3
            rcases a3 with a3 | rfl
            · exact Or.inl a3
            · exact Or.inr ⟨id, o, by simp, hid, hn, hk, fun _ => ⟨(id, n', d), by simp, rfl⟩⟩
          · refine Or.inr ⟨id2, o2, by simp [b1], b2, b3, bk, fun h => ?_⟩
            obtain ⟨x, hx, hx'⟩ := b4 h
            exact ⟨x, by simp [hx], hx'⟩

theorem deps_exists {E : Env} {cfg : Config} {W : World} {fuel : Nat} {origins : List Path}
    (h : ∀ o ∈ origins, ∃ id n, ComesFrom W o id ∧ Called W id n ∧ NotRejected E W id n ∧
      (Admitted E cfg W id n → ∃ d, Module.parse E cfg W fuel id = .ok d)) (st : List Str × List Module) :
    ∃ st', foldRes (depStep E cfg W fuel) st origins = .ok st' := by
  induction origins generalizing st with
  | nil => exact ⟨st, rfl⟩
  | cons o origins ih =>
    obtain ⟨id, n, h1, h2, hk, h3⟩ := h o (by simp)
    obtain ⟨st1, hst1⟩ := depStep_exists st h1 h2 hk h3
    obtain ⟨st2, hst2⟩ := ih (fun o ho => h o (by simp [ho])) st1
    exact ⟨st2, by rw [foldRes, hst1]; exact hst2⟩

end Bindgen
