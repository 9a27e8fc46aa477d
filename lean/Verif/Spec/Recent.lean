/-!
# What recent means
-/
namespace Verif.Spec

/-- The last two elements. -/
def lastTwo {α : Type} (l : List α) : List α := l.drop (l.length - 2)

end Verif.Spec
