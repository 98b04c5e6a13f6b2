import sys
sys.path.insert(0,'/tmp/gen'); from reg import reg
P=r'''
p("C88","The game decides as the user's switches mean","The user builds switches, layouts and maps that point to one another and adds the maps. When the file is written and the game loads its entries in order, then for every map, every cargo type and the default, in every state of the game, following the word in the map's bytes gives what the user's target means - the layout, the callback result or the computed value, with subroutines called as the objects they are - and leaves the storage as the target means. Ids and their reuse, the order of the actions, the features handed on, the bytes of code and ranges and the framing of the file do not show in the result.","every acyclic set of switches, layouts and maps of any size, depth and sharing; every order of adding; every state and variables of the game; every other item in the file","it composes resolution, compilation, encoding and the container over unbounded graphs and all states of the game; a test runs no game",["grf/grf.py:BaseNewGRF.resolve_refs","grf/grf.py:BaseNewGRF._do_write","grf/actions.py:Switch.get_refs","grf/actions.py:Switch.get_data","grf/actions.py:Action3.get_refs","grf/actions.py:Action3.get_data","grf/actions.py:get_ref_id"])
'''
M=r'''
c("C88","proved",["Chain.game_decides_as_meant","Chain.meaning_deeper","Chain.meaning_unique","Chain.target_added_late"],"conditions written in the theorem: no cycles, the user adds maps and items that are no Action 2 (adding a target after its map breaks it: target_added_late), code as in C21, no range backwards across zero (C25), subroutines called by name while no register is live (C21, C22); RandomSwitch, Ref, CB and Sound targets are not among the objects of this theorem; the game's loading of groups is a specification written from the NewGRF documentation")
'''
reg(P,M,
 rows=[['C88','`Model.Chain`: objects pointing to objects, their `get_refs` and bytes after resolution; `Spec.GameChain`: the game loading and running groups; `Spec.ChainSem`: what the objects mean','composition of C21/C22 (code), C25/C26 (switch bytes), C27/C28/C58 (resolution), C29 (container): each id means its target when an action is loaded because nothing with the same id comes between; simulation by induction on the depth; subroutine names and numbers are exchanged by a renaming lemma']],
 more=['| actions.py get_refs and get_data of the linked objects, as a whole file | Chain | C88 |'],
 dev=[],
 imports=['Verif.Spec.GameChain','Verif.Model.Chain','Verif.Spec.ChainSem','Verif.Props.Chain'])
