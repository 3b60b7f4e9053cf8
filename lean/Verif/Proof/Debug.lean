import Verif.Spec.Debug

/-! Lemmas about functions of the debug build. -/

namespace Soro
namespace Dbg

theorem check_pos {n : Nat} {c : Prop} [Decidable c] (h : c) : check n c = .ok () := by simp [check, h]

theorem check_neg {n : Nat} {c : Prop} [Decidable c] (h : ¬ c) : check n c = .error (.assertion n) := by
  simp [check, h]

theorem ok_bind {α β : Type} (a : α) (f : α → Dbg β) : ((Except.ok a : Dbg α) >>= f) = f a := rfl

theorem pure_bind' {α β : Type} (a : α) (f : α → Dbg β) : ((pure a : Dbg α) >>= f) = f a := rfl

theorem error_bind {α β : Type} (e : Fault) (f : α → Dbg β) : ((Except.error e : Dbg α) >>= f) = .error e := rfl

end Dbg

end Soro
