import Verif.Tree.Model
/-!
# Model of container/c_set.c and container/c_map.c

`c_set_t`, `c_multiset_t`, `c_map_t`, `c_multimap_t` are all `c_tree_t` (include/c_set.h, include/c_map.h); every function delegates to one of c_tree.c.  One definition per C function, with the delegation the C
text has.  As in Tree/Model.lean iterators are represented by the node they designate, functions and types by ids; `IDENTITY`, `KEY_OF_PAIR` are the ids of `__c_identity` (c_internal.h:97-100) and `__key_of_pair`
(c_map.c:31-34), `PAIR` is the id of the type returned by `c_get_pair_type_info()` (c_pair.c), `NULL_TYPE` that of `C_NULL_TYPE`.  `max_size` is not modelled.
-/
namespace CC
variable {V : Type}
open Tree (Env)

/-- the id of `__c_identity`, include/c_internal.h:97-100 -/
abbrev IDENTITY : Nat := 1
/-- the id of `__key_of_pair`, container/c_map.c:31-34 -/
abbrev KEY_OF_PAIR : Nat := 2
/-- the id of the pair type, `c_get_pair_type_info()`, container/c_map.c:39 -/
abbrev PAIR : Nat := 1
/-- the id of `C_NULL_TYPE`, container/c_set.c:34 -/
abbrev NULL_TYPE : Nat := 0

namespace CSet

/-- `c_set_create`, container/c_set.c:32-35 -/
def create (key_type key_comp : Nat) : M V Addr := Tree.create key_type key_type NULL_TYPE IDENTITY key_comp

/-- `c_set_destroy`, container/c_set.c:37-40 -/
def destroy (c : Addr) : M V Unit := Tree.destroy c

/-- `c_set_begin`, container/c_set.c:42-45 -/
def begin_ (c : Addr) : M V Addr := Tree.begin_ c

/-- `c_set_rbegin`, container/c_set.c:47-50 -/
def rbegin (c : Addr) : M V Addr := Tree.rbegin c

/-- `c_set_end`, container/c_set.c:52-55 -/
def end_ (c : Addr) : M V Addr := Tree.end_ c

/-- `c_set_rend`, container/c_set.c:57-60 -/
def rend (c : Addr) : M V Addr := Tree.rend c

/-- `c_set_empty`, container/c_set.c:62-65 -/
def empty (c : Addr) : M V Bool := Tree.empty c

/-- `c_set_size`, container/c_set.c:67-70 -/
def size (c : Addr) : M V Nat := Tree.size c

/-- `c_set_clear`, container/c_set.c:77-80 -/
def clear (c : Addr) : M V Unit := Tree.clear c

/-- `c_set_insert_value`, container/c_set.c:82-85 -/
def insertValue (E : Env V) (c : Addr) (value : Loc) : M V Addr := Tree.insertUniqueValue E c value

/-- `c_set_insert`, container/c_set.c:87-90 -/
def insert (E : Env V) (c : Addr) (hint : Addr) (value : Loc) : M V Addr := Tree.insertUnique E c hint value

/-- `c_set_insert_range`, container/c_set.c:92-97, for a range of tree iterators -/
def insertRange (E : Env V) (c : Addr) (first : Addr) (last : Addr) : M V Unit := Tree.insertUniqueRange E c first last

/-- `c_set_insert_from`, container/c_set.c:99-102 -/
def insertFrom (E : Env V) (c : Addr) (first_value : Loc) (last_value : Loc) : M V Unit := Tree.insertUniqueFromC E c first_value last_value

/-- `c_set_erase`, container/c_set.c:104-107 -/
def erase (c : Addr) (pos : Addr) : M V Addr := Tree.erase c pos

/-- `c_set_erase_key`, container/c_set.c:109-112 -/
def eraseKey (E : Env V) (c : Addr) (key : Loc) : M V Nat := Tree.eraseKey E c key

/-- `c_set_erase_range`, container/c_set.c:114-117 -/
def eraseRange (c : Addr) (first : Addr) (last : Addr) : M V Unit := Tree.eraseRange c first last

/-- `c_set_erase_from`, container/c_set.c:119-122 (`stride` is the size of the value type in units of key slots, see `Tree.eraseFromC`) -/
def eraseFrom (E : Env V) (stride : Nat) (c : Addr) (first_key : Loc) (last_key : Loc) : M V Unit := Tree.eraseFromC E stride c first_key last_key

/-- `c_set_swap`, container/c_set.c:124-127 -/
def swap (c : Addr) (other : Addr) : M V Unit := Tree.swap c other

/-- `c_set_find`, container/c_set.c:129-132 -/
def find (E : Env V) (c : Addr) (key : Loc) : M V Addr := Tree.find E c key

/-- `c_set_count`, container/c_set.c:134-137 -/
def count (E : Env V) (c : Addr) (key : Loc) : M V Nat := Tree.count E c key

/-- `c_set_lower_bound`, container/c_set.c:139-142 -/
def lowerBound (E : Env V) (c : Addr) (key : Loc) : M V Addr := Tree.lowerBound E c key

/-- `c_set_upper_bound`, container/c_set.c:144-147 -/
def upperBound (E : Env V) (c : Addr) (key : Loc) : M V Addr := Tree.upperBound E c key

/-- `c_set_equal_range`, container/c_set.c:149-154 -/
def equalRange (E : Env V) (c : Addr) (key : Loc) (lower : Loc) (upper : Loc) : M V Unit := Tree.equalRange E c key lower upper

end CSet

namespace CMultiset

/-- `c_multiset_create`, container/c_set.c:157-160 -/
def create (key_type key_comp : Nat) : M V Addr := Tree.create key_type key_type NULL_TYPE IDENTITY key_comp

/-- `c_multiset_destroy`, container/c_set.c:162-165 -/
def destroy (c : Addr) : M V Unit := Tree.destroy c

/-- `c_multiset_begin`, container/c_set.c:167-170 -/
def begin_ (c : Addr) : M V Addr := Tree.begin_ c

/-- `c_multiset_rbegin`, container/c_set.c:172-175 -/
def rbegin (c : Addr) : M V Addr := Tree.rbegin c

/-- `c_multiset_end`, container/c_set.c:177-180 -/
def end_ (c : Addr) : M V Addr := Tree.end_ c

/-- `c_multiset_rend`, container/c_set.c:182-185 -/
def rend (c : Addr) : M V Addr := Tree.rend c

/-- `c_multiset_empty`, container/c_set.c:187-190 -/
def empty (c : Addr) : M V Bool := Tree.empty c

/-- `c_multiset_size`, container/c_set.c:192-195 -/
def size (c : Addr) : M V Nat := Tree.size c

/-- `c_multiset_clear`, container/c_set.c:202-205 -/
def clear (c : Addr) : M V Unit := Tree.clear c

/-- `c_multiset_insert_value`, container/c_set.c:207-210 -/
def insertValue (E : Env V) (c : Addr) (value : Loc) : M V Addr := Tree.insertEqualValue E c value

/-- `c_multiset_insert`, container/c_set.c:212-217 -/
def insert (E : Env V) (c : Addr) (hint : Addr) (value : Loc) : M V Addr := Tree.insertEqual E c hint value

/-- `c_multiset_insert_range`, container/c_set.c:219-224, for a range of tree iterators -/
def insertRange (E : Env V) (c : Addr) (first : Addr) (last : Addr) : M V Unit := Tree.insertEqualRange E c first last

/-- `c_multiset_insert_from`, container/c_set.c:226-229 -/
def insertFrom (E : Env V) (c : Addr) (first_value : Loc) (last_value : Loc) : M V Unit := Tree.insertEqualFromC E c first_value last_value

/-- `c_multiset_erase`, container/c_set.c:231-234 -/
def erase (c : Addr) (pos : Addr) : M V Addr := Tree.erase c pos

/-- `c_multiset_erase_key`, container/c_set.c:236-239 -/
def eraseKey (E : Env V) (c : Addr) (key : Loc) : M V Nat := Tree.eraseKey E c key

/-- `c_multiset_erase_range`, container/c_set.c:241-246 -/
def eraseRange (c : Addr) (first : Addr) (last : Addr) : M V Unit := Tree.eraseRange c first last

/-- `c_multiset_erase_from`, container/c_set.c:248-251 (`stride` is the size of the value type in units of key slots, see `Tree.eraseFromC`) -/
def eraseFrom (E : Env V) (stride : Nat) (c : Addr) (first_key : Loc) (last_key : Loc) : M V Unit := Tree.eraseFromC E stride c first_key last_key

/-- `c_multiset_swap`, container/c_set.c:253-256 -/
def swap (c : Addr) (other : Addr) : M V Unit := Tree.swap c other

/-- `c_multiset_find`, container/c_set.c:258-261 -/
def find (E : Env V) (c : Addr) (key : Loc) : M V Addr := Tree.find E c key

/-- `c_multiset_count`, container/c_set.c:263-266 -/
def count (E : Env V) (c : Addr) (key : Loc) : M V Nat := Tree.count E c key

/-- `c_multiset_lower_bound`, container/c_set.c:268-271 -/
def lowerBound (E : Env V) (c : Addr) (key : Loc) : M V Addr := Tree.lowerBound E c key

/-- `c_multiset_upper_bound`, container/c_set.c:273-276 -/
def upperBound (E : Env V) (c : Addr) (key : Loc) : M V Addr := Tree.upperBound E c key

/-- `c_multiset_equal_range`, container/c_set.c:278-283 -/
def equalRange (E : Env V) (c : Addr) (key : Loc) (lower : Loc) (upper : Loc) : M V Unit := Tree.equalRange E c key lower upper

end CMultiset

namespace CMap

/-- `c_map_create`, container/c_map.c:37-41 -/
def create (key_type value_type key_comp : Nat) : M V Addr := Tree.create key_type PAIR value_type KEY_OF_PAIR key_comp

/-- `c_map_destroy`, container/c_map.c:43-46 -/
def destroy (c : Addr) : M V Unit := Tree.destroy c

/-- `c_map_begin`, container/c_map.c:48-51 -/
def begin_ (c : Addr) : M V Addr := Tree.begin_ c

/-- `c_map_rbegin`, container/c_map.c:53-56 -/
def rbegin (c : Addr) : M V Addr := Tree.rbegin c

/-- `c_map_end`, container/c_map.c:58-61 -/
def end_ (c : Addr) : M V Addr := Tree.end_ c

/-- `c_map_rend`, container/c_map.c:63-66 -/
def rend (c : Addr) : M V Addr := Tree.rend c

/-- `c_map_empty`, container/c_map.c:68-71 -/
def empty (c : Addr) : M V Bool := Tree.empty c

/-- `c_map_size`, container/c_map.c:73-76 -/
def size (c : Addr) : M V Nat := Tree.size c

/-- `c_map_clear`, container/c_map.c:83-86 -/
def clear (c : Addr) : M V Unit := Tree.clear c

/-- `c_map_insert_value`, container/c_map.c:88-91 -/
def insertValue (E : Env V) (c : Addr) (value : Loc) : M V Addr := Tree.insertUniqueValue E c value

/-- `c_map_insert`, container/c_map.c:93-96 -/
def insert (E : Env V) (c : Addr) (hint : Addr) (value : Loc) : M V Addr := Tree.insertUnique E c hint value

/-- `c_map_insert_range`, container/c_map.c:98-103, for a range of tree iterators -/
def insertRange (E : Env V) (c : Addr) (first : Addr) (last : Addr) : M V Unit := Tree.insertUniqueRange E c first last

/-- `c_map_insert_from`, container/c_map.c:105-108 -/
def insertFrom (E : Env V) (c : Addr) (first_value : Loc) (last_value : Loc) : M V Unit := Tree.insertUniqueFromC E c first_value last_value

/-- `c_map_erase`, container/c_map.c:110-113 -/
def erase (c : Addr) (pos : Addr) : M V Addr := Tree.erase c pos

/-- `c_map_erase_key`, container/c_map.c:115-118 -/
def eraseKey (E : Env V) (c : Addr) (key : Loc) : M V Nat := Tree.eraseKey E c key

/-- `c_map_erase_range`, container/c_map.c:120-123 -/
def eraseRange (c : Addr) (first : Addr) (last : Addr) : M V Unit := Tree.eraseRange c first last

/-- `c_map_erase_from`, container/c_map.c:125-128 (`stride` is the size of the value type in units of key slots, see `Tree.eraseFromC`) -/
def eraseFrom (E : Env V) (stride : Nat) (c : Addr) (first_key : Loc) (last_key : Loc) : M V Unit := Tree.eraseFromC E stride c first_key last_key

/-- `c_map_swap`, container/c_map.c:130-133 -/
def swap (c : Addr) (other : Addr) : M V Unit := Tree.swap c other

/-- `c_map_find`, container/c_map.c:135-138 -/
def find (E : Env V) (c : Addr) (key : Loc) : M V Addr := Tree.find E c key

/-- `c_map_count`, container/c_map.c:140-143 -/
def count (E : Env V) (c : Addr) (key : Loc) : M V Nat := Tree.count E c key

/-- `c_map_lower_bound`, container/c_map.c:145-148 -/
def lowerBound (E : Env V) (c : Addr) (key : Loc) : M V Addr := Tree.lowerBound E c key

/-- `c_map_upper_bound`, container/c_map.c:150-153 -/
def upperBound (E : Env V) (c : Addr) (key : Loc) : M V Addr := Tree.upperBound E c key

/-- `c_map_equal_range`, container/c_map.c:155-160 -/
def equalRange (E : Env V) (c : Addr) (key : Loc) (lower : Loc) (upper : Loc) : M V Unit := Tree.equalRange E c key lower upper

end CMap

namespace CMultimap

/-- `c_multimap_create`, container/c_map.c:163-166 -/
def create (key_type value_type key_comp : Nat) : M V Addr := Tree.create key_type PAIR value_type KEY_OF_PAIR key_comp

/-- `c_multimap_destroy`, container/c_map.c:168-171 -/
def destroy (c : Addr) : M V Unit := Tree.destroy c

/-- `c_multimap_begin`, container/c_map.c:173-176 -/
def begin_ (c : Addr) : M V Addr := Tree.begin_ c

/-- `c_multimap_rbegin`, container/c_map.c:178-181 -/
def rbegin (c : Addr) : M V Addr := Tree.rbegin c

/-- `c_multimap_end`, container/c_map.c:183-186 -/
def end_ (c : Addr) : M V Addr := Tree.end_ c

/-- `c_multimap_rend`, container/c_map.c:188-191 -/
def rend (c : Addr) : M V Addr := Tree.rend c

/-- `c_multimap_empty`, container/c_map.c:193-196 -/
def empty (c : Addr) : M V Bool := Tree.empty c

/-- `c_multimap_size`, container/c_map.c:198-201 -/
def size (c : Addr) : M V Nat := Tree.size c

/-- `c_multimap_clear`, container/c_map.c:208-211 -/
def clear (c : Addr) : M V Unit := Tree.clear c

/-- `c_multimap_insert_value`, container/c_map.c:213-216 -/
def insertValue (E : Env V) (c : Addr) (value : Loc) : M V Addr := Tree.insertEqualValue E c value

/-- `c_multimap_insert`, container/c_map.c:218-223 -/
def insert (E : Env V) (c : Addr) (hint : Addr) (value : Loc) : M V Addr := Tree.insertEqual E c hint value

/-- `c_multimap_insert_range`, container/c_map.c:225-230, for a range of tree iterators -/
def insertRange (E : Env V) (c : Addr) (first : Addr) (last : Addr) : M V Unit := Tree.insertEqualRange E c first last

/-- `c_multimap_insert_from`, container/c_map.c:232-235 -/
def insertFrom (E : Env V) (c : Addr) (first_value : Loc) (last_value : Loc) : M V Unit := Tree.insertEqualFromC E c first_value last_value

/-- `c_multimap_erase`, container/c_map.c:237-240 -/
def erase (c : Addr) (pos : Addr) : M V Addr := Tree.erase c pos

/-- `c_multimap_erase_key`, container/c_map.c:242-245 -/
def eraseKey (E : Env V) (c : Addr) (key : Loc) : M V Nat := Tree.eraseKey E c key

/-- `c_multimap_erase_range`, container/c_map.c:247-252 -/
def eraseRange (c : Addr) (first : Addr) (last : Addr) : M V Unit := Tree.eraseRange c first last

/-- `c_multimap_erase_from`, container/c_map.c:254-257 (`stride` is the size of the value type in units of key slots, see `Tree.eraseFromC`) -/
def eraseFrom (E : Env V) (stride : Nat) (c : Addr) (first_key : Loc) (last_key : Loc) : M V Unit := Tree.eraseFromC E stride c first_key last_key

/-- `c_multimap_swap`, container/c_map.c:259-262 -/
def swap (c : Addr) (other : Addr) : M V Unit := Tree.swap c other

/-- `c_multimap_find`, container/c_map.c:264-267 -/
def find (E : Env V) (c : Addr) (key : Loc) : M V Addr := Tree.find E c key

/-- `c_multimap_count`, container/c_map.c:269-272 -/
def count (E : Env V) (c : Addr) (key : Loc) : M V Nat := Tree.count E c key

/-- `c_multimap_lower_bound`, container/c_map.c:274-277 -/
def lowerBound (E : Env V) (c : Addr) (key : Loc) : M V Addr := Tree.lowerBound E c key

/-- `c_multimap_upper_bound`, container/c_map.c:279-282 -/
def upperBound (E : Env V) (c : Addr) (key : Loc) : M V Addr := Tree.upperBound E c key

/-- `c_multimap_equal_range`, container/c_map.c:284-289 -/
def equalRange (E : Env V) (c : Addr) (key : Loc) (lower : Loc) (upper : Loc) : M V Unit := Tree.equalRange E c key lower upper

end CMultimap

end CC
