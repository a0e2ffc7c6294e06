import Verif.Lemmas.FloatBack
/-
What is read from the text of a document whose floats are not all read again.
-/
namespace Wot

open FloatText F64

variable {fl : FloatText} {g : F64 → F64}

theorem compact_moved (j : Json) : (∀ n, NumberIn n j → NumberText fl (n.mapFloat g) (n.text fl)) →
    ValueText fl (j.mapFloats g) (j.compact fl) := by
  induction j using Json.ind with
  | hnull => exact fun _ => .null
  | hbool b => cases b <;> exact fun _ => by constructor
  | hnum n => exact fun h => .num (h n .here)
  | hstr s => exact fun _ => .str (stringText_text s)
  | harr l ih =>
    intro h
    cases l with
    | nil => exact .empty (w := []) space_nil
    | cons j l =>
      have hk : ∀ x ∈ j :: l, ValueText fl (x.mapFloats g) (x.compact fl) :=
        fun x hx => ih x hx fun n hn => h n (.element hx hn)
      suffices hs : ∀ j l, (∀ x ∈ j :: l, ValueText fl (x.mapFloats g) (x.compact fl)) →
          ∃ cs, ElementsText fl (Json.mapFloatsList g (j :: l)) cs ∧ j.compact fl ++ Json.compactList fl l = cs ++ [']'] by
        obtain ⟨cs, h1, h2⟩ := hs j l hk
        rw [Json.compact, List.cons_append, h2]
        exact .arr h1
      intro j l
      induction l generalizing j with
      | nil =>
        intro hk
        exact ⟨[] ++ j.compact fl ++ [], .one space_nil (hk j (by simp)) space_nil, by simp [Json.compactList]⟩
      | cons j' l ihl =>
        intro hk
        obtain ⟨cs, h1, h2⟩ := ihl j' fun x hx => hk x (List.mem_cons_of_mem _ hx)
        refine ⟨[] ++ j.compact fl ++ [] ++ ',' :: cs, .cons space_nil (hk j (by simp)) space_nil h1, ?_⟩
        rw [Json.compactList, List.cons_append, h2]
        simp
  | hobj m ih =>
    intro h
    cases m with
    | nil => exact .emptyObj (w := []) space_nil
    | cons kv m =>
      have hk : ∀ x ∈ kv :: m, ValueText fl (x.2.mapFloats g) (x.2.compact fl) :=
        fun x hx => ih x hx fun n hn => h n (.member (k := x.1) hx hn)
      suffices hs : ∀ kv m, (∀ x ∈ kv :: m, ValueText fl (x.2.mapFloats g) (x.2.compact fl)) →
          ∃ cs, MembersText fl (Json.mapFloatsMembers g (kv :: m)) cs ∧
            stringText kv.1 ++ ':' :: (kv.2.compact fl ++ Json.compactMembers fl m) = cs ++ ['}'] by
        obtain ⟨cs, h1, h2⟩ := hs kv m hk
        obtain ⟨k, j⟩ := kv
        have : Json.compact fl (.obj ((k, j) :: m)) = '{' :: cs ++ ['}'] := by
          rw [Json.compact, show '{' :: cs ++ ['}'] = '{' :: (cs ++ ['}']) from rfl, ← h2]
          simp
        rw [this]
        exact .obj h1
      intro kv m
      induction m generalizing kv with
      | nil =>
        intro hk
        obtain ⟨k, j⟩ := kv
        exact ⟨[] ++ stringText k ++ [] ++ ':' :: [] ++ j.compact fl ++ [],
          .one space_nil (stringText_text k) space_nil space_nil (hk (k, j) (by simp)) space_nil,
          by simp [Json.compactMembers]⟩
      | cons kv' m ihl =>
        intro hk
        obtain ⟨cs, h1, h2⟩ := ihl kv' fun x hx => hk x (List.mem_cons_of_mem _ hx)
        obtain ⟨k, j⟩ := kv
        obtain ⟨k', j'⟩ := kv'
        refine ⟨[] ++ stringText k ++ [] ++ ':' :: [] ++ j.compact fl ++ [] ++ ',' :: cs,
          .cons space_nil (stringText_text k) space_nil space_nil (hk (k, j) (by simp)) space_nil h1, ?_⟩
        have : Json.compactMembers fl ((k', j') :: m) = ',' :: (cs ++ ['}']) := by
          rw [Json.compactMembers, ← h2]; simp
        rw [this]
        simp

theorem pretty_moved (j : Json) : ∀ d, (∀ n, NumberIn n j → NumberText fl (n.mapFloat g) (n.text fl)) →
    ValueText fl (j.mapFloats g) (j.pretty fl d) := by
  induction j using Json.ind with
  | hnull => exact fun _ _ => .null
  | hbool b => cases b <;> exact fun _ _ => by constructor
  | hnum n => exact fun _ h => .num (h n .here)
  | hstr s => exact fun _ _ => .str (stringText_text s)
  | harr l ih =>
    intro d h
    cases l with
    | nil => exact .empty (w := []) space_nil
    | cons j l =>
      have hk : ∀ x ∈ j :: l, ValueText fl (x.mapFloats g) (x.pretty fl (d + 1)) :=
        fun x hx => ih x hx _ fun n hn => h n (.element hx hn)
      suffices hs : ∀ j l, (∀ x ∈ j :: l, ValueText fl (x.mapFloats g) (x.pretty fl (d + 1))) →
          ∃ cs, ElementsText fl (Json.mapFloatsList g (j :: l)) cs ∧
            newLine (d + 1) ++ j.pretty fl (d + 1) ++ Json.prettyList fl d l = cs ++ [']'] by
        obtain ⟨cs, h1, h2⟩ := hs j l hk
        have : Json.pretty fl d (.arr (j :: l)) = '[' :: cs ++ [']'] := by
          rw [Json.pretty, show '[' :: cs ++ [']'] = '[' :: (cs ++ [']']) from rfl, ← h2]; simp
        rw [this]
        exact .arr h1
      intro j l
      induction l generalizing j with
      | nil =>
        intro hk
        exact ⟨newLine (d + 1) ++ j.pretty fl (d + 1) ++ newLine d,
          .one (space_newLine _) (hk j (by simp)) (space_newLine _), by simp [Json.prettyList]⟩
      | cons j' l ihl =>
        intro hk
        obtain ⟨cs, h1, h2⟩ := ihl j' fun x hx => hk x (List.mem_cons_of_mem _ hx)
        refine ⟨newLine (d + 1) ++ j.pretty fl (d + 1) ++ [] ++ ',' :: cs,
          .cons (space_newLine _) (hk j (by simp)) space_nil h1, ?_⟩
        have : Json.prettyList fl d (j' :: l) = ',' :: (cs ++ [']']) := by
          rw [Json.prettyList, ← h2]; simp
        rw [this]
        simp
  | hobj m ih =>
    intro d h
    cases m with
    | nil => exact .emptyObj (w := []) space_nil
    | cons kv m =>
      have hk : ∀ x ∈ kv :: m, ValueText fl (x.2.mapFloats g) (x.2.pretty fl (d + 1)) :=
        fun x hx => ih x hx _ fun n hn => h n (.member (k := x.1) hx hn)
      suffices hs : ∀ kv m, (∀ x ∈ kv :: m, ValueText fl (x.2.mapFloats g) (x.2.pretty fl (d + 1))) →
          ∃ cs, MembersText fl (Json.mapFloatsMembers g (kv :: m)) cs ∧
            newLine (d + 1) ++ stringText kv.1 ++ ':' :: ' ' :: (kv.2.pretty fl (d + 1) ++ Json.prettyMembers fl d m) =
              cs ++ ['}'] by
        obtain ⟨cs, h1, h2⟩ := hs kv m hk
        obtain ⟨k, j⟩ := kv
        have : Json.pretty fl d (.obj ((k, j) :: m)) = '{' :: cs ++ ['}'] := by
          rw [Json.pretty, show '{' :: cs ++ ['}'] = '{' :: (cs ++ ['}']) from rfl, ← h2]
          simp
        rw [this]
        exact .obj h1
      intro kv m
      induction m generalizing kv with
      | nil =>
        intro hk
        obtain ⟨k, j⟩ := kv
        exact ⟨newLine (d + 1) ++ stringText k ++ [] ++ ':' :: [' '] ++ j.pretty fl (d + 1) ++ newLine d,
          .one (space_newLine _) (stringText_text k) space_nil space_one (hk (k, j) (by simp)) (space_newLine _),
          by simp [Json.prettyMembers]⟩
      | cons kv' m ihl =>
        intro hk
        obtain ⟨cs, h1, h2⟩ := ihl kv' fun x hx => hk x (List.mem_cons_of_mem _ hx)
        obtain ⟨k, j⟩ := kv
        obtain ⟨k', j'⟩ := kv'
        refine ⟨newLine (d + 1) ++ stringText k ++ [] ++ ':' :: [' '] ++ j.pretty fl (d + 1) ++ [] ++ ',' :: cs,
          .cons (space_newLine _) (stringText_text k) space_nil space_one (hk (k, j) (by simp)) space_nil h1, ?_⟩
        have : Json.prettyMembers fl d ((k', j') :: m) = ',' :: (cs ++ ['}']) := by
          rw [Json.prettyMembers, ← h2]; simp
        rw [this]
        simp

end Wot
