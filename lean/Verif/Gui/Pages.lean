import Verif.Base

/-!
# C152: the pages of an application and its navigation (`gui/pages.go`, `gui/navigator.go`)

`none` is a panic; a nil map is `none`.  A page is any value with a path.
-/

namespace Memar.Gui.Registry
open Memar

/-- gui/pages.go:8-11 -/
structure Pages (α : Type) where
  poolByTimeAdded : List α := []
  poolByPath : Option (Bytes → Option α) := none

/-- gui/pages.go:13-16 `RegisterPage`: writing into a nil map panics. -/
def Pages.registerPage {α : Type} (path : α → Bytes) (p : Pages α) (page : α) : Option (Pages α) :=
  match p.poolByPath with
  | none => none
  | some m => some ⟨p.poolByTimeAdded ++ [page], some fun (k : Bytes) => if k = path page then some page else m k⟩

/-- gui/pages.go:17-19 `GetPageByPath`; a nil page is `none`. -/
def Pages.getPageByPath {α : Type} (p : Pages α) (k : Bytes) : Option α :=
  match p.poolByPath with
  | none => none
  | some m => m k

/-- gui/pages.go:20-22 `Pages` -/
def Pages.pages {α : Type} (p : Pages α) : List α := p.poolByTimeAdded

/-- gui/initialize.go:6-8 `Initialize`, which does nothing, on the zero value of gui/application.go:8-24: the only way to make an
application outside the package. -/
def Pages.initialized {α : Type} : Pages α := {}

/-- Several registrations. -/
def Pages.registerAll {α : Type} (path : α → Bytes) (p : Pages α) : List α → Option (Pages α)
  | [] => some p
  | x :: xs => (p.registerPage path x).bind fun q => q.registerAll path xs

/-- gui/navigator.go:9-14 -/
structure Navigator (α : Type) where
  homePage : Option α := none
  activePage : Option α := none
  pages : List α := []

/-- gui/navigator.go:31 `ActivatePage` -/
def Navigator.activatePage {α : Type} (n : Navigator α) (_url : Bytes) : Navigator α := n
/-- gui/navigator.go:19-21 `HomePage` -/
def Navigator.getHomePage {α : Type} (_n : Navigator α) : Option α := none
/-- gui/navigator.go:22-24 `ActivePage` -/
def Navigator.getActivePage {α : Type} (_n : Navigator α) : Option α := none
/-- gui/navigator.go:27-29 `Pages` -/
def Navigator.getPages {α : Type} (_n : Navigator α) : List α := []

/-- **C152** violated for every application: no page can be registered, the call panics. -/
theorem C152_register_violated {α : Type} (path : α → Bytes) (page : α) :
    (Pages.initialized : Pages α).registerPage path page = none := rfl

/-- **C152** (partial: for a registry whose map has been made, which no code does): after registering pages, whatever was there
before, a path leads to the page that was registered last with it, or to what it led to before; and the pages are listed in the
order they were registered.
Missing: a registry as the code makes it, and navigation (refuted: `C152_register_violated`, `C152_navigate_violated`). -/
theorem C152_registry_partial {α : Type} (path : α → Bytes) (p : Pages α) (m : Bytes → Option α) (hm : p.poolByPath = some m)
    (xs : List α) :
    ∃ q, p.registerAll path xs = some q ∧ q.pages = p.pages ++ xs ∧
      ∀ k, q.getPageByPath k = ((xs.filter fun (x : α) => path x = k).getLast?).or (p.getPageByPath k) := by
  induction xs generalizing p m with
  | nil => exact ⟨p, rfl, by simp, fun k => rfl⟩
  | cons x t ih =>
    obtain ⟨q, h1, h2, h3⟩ := ih ⟨p.poolByTimeAdded ++ [x], some fun (k : Bytes) => if k = path x then some x else m k⟩ _ rfl
    refine ⟨q, ?_, ?_, ?_⟩
    · rw [Pages.registerAll, Pages.registerPage, hm]; exact h1
    · rw [h2]; simp [Pages.pages]
    · intro k
      rw [h3 k]
      have e : (Pages.getPageByPath ⟨p.poolByTimeAdded ++ [x], some fun (k : Bytes) => if k = path x then some x else m k⟩ k) =
          if k = path x then some x else p.getPageByPath k := by
        simp only [Pages.getPageByPath, hm]
      rw [e]
      by_cases hk : path x = k
      · have e1 : ((x :: t).filter fun (y : α) => path y = k) = x :: t.filter fun (y : α) => path y = k := by simp [hk]
        rw [e1, if_pos hk.symm]
        cases h : (t.filter fun (y : α) => path y = k).getLast? with
        | none =>
          rw [List.getLast?_eq_none_iff] at h
          rw [h]; rfl
        | some y => rw [List.getLast?_cons, h]; rfl
      · have e1 : ((x :: t).filter fun (y : α) => path y = k) = t.filter fun (y : α) => path y = k := by simp [hk]
        have hk' : ¬ k = path x := fun e => hk e.symm
        rw [e1, if_neg hk']

example := C152_registry_partial (α := Bytes × Nat) (·.1) ⟨[(bs "/z", 0)], some fun k => if k = bs "/z" then some (bs "/z", 0) else none⟩ _ rfl
  [(bs "/a", 1), (bs "/b", 2), (bs "/a", 3)]

/-- **C152** violated for navigation: after activating any page there is no active page, no home page and no page. -/
theorem C152_navigate_violated {α : Type} (n : Navigator α) (url : Bytes) :
    (n.activatePage url).getActivePage = none ∧ (n.activatePage url).getHomePage = none ∧ (n.activatePage url).getPages = [] :=
  ⟨rfl, rfl, rfl⟩

/- A registry with a map: the second page of a path replaces the first. -/
example : ((⟨[], some fun _ => none⟩ : Pages (Bytes × Nat)).registerAll (·.1) [(bs "/a", 1), (bs "/b", 2), (bs "/a", 3)]).map
    (fun q => [q.getPageByPath (bs "/a"), q.getPageByPath (bs "/b"), q.getPageByPath (bs "/c")].map (Option.map (·.2))) =
    some [some 3, some 2, none] := by decide

end Memar.Gui.Registry
