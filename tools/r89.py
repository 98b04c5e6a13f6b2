import sys
sys.path.insert(0,'/tmp/gen'); from reg import reg
P=r'''
p("C89","Registered callbacks answer in the game","The user registers graphics, property handlers and callbacks for an item and adds the map action the callback manager makes. In the written file, when the game asks the item - on the map or in the purchase list - for a callback number with an argument, in any state, it follows the words, ids and switches in the bytes to what the handler that counts as registered for that callback, property and situation means (a number, a layout, or what the user's own switches decide), and leaves the storage as that means.","every feature with named variables, every set of registered handlers, every further object and item in the file, every callback number, argument, state and random bits of the game","it composes the manager's tables and switches with compilation, resolution, encoding and the container over unbounded object graphs; a test runs no game",["grf/lib/callback.py:CallbackManager.make_switch","grf/lib/callback.py:CallbackManager.make_map_action","grf/lib/callback.py:CallbackManager.Properties.make_switches","grf/actions.py:Map","grf/actions.py:Switch.get_data","grf/grf.py:BaseNewGRF.resolve_refs"])
'''
M=r'''
c("C89","proved",["Chain.registered_answers_in_game","Chain.tree_means","Chain.field_switch","Chain.made_ok","Chain.made_full","Chain.train_item"],"conditions as in C88; the switches the manager makes meet them (made_ok) and are never without ranges (made_full); which handler counts as registered is mapAnswer and purchaseAnswer of C42, with the library's deviations named there; for the features without named variables no such switch can be written (callbacks_without_variables, C42)")
'''
reg(P,M,
 rows=[['C89','`Model.CallbackObjs`: the trees of `Model.Callbacks` as objects of a file','composition of C42 (which handler), C67 (what the named fields read) and C88 (from objects to the game): a switch over a field means what is found under the field\'s value']],
 more=['| lib/callback.py, the objects of the manager in a file | CallbackObjs | C89 |'],
 dev=[],
 imports=['Verif.Model.CallbackObjs','Verif.Props.CallbackObjs'])
