import json,sys
# usage: addprop id title statement quantifier why anchors(comma)
a=sys.argv[1:]
ids=[json.loads(l)['id'] for l in open('/verif/properties.jsonl')]
assert a[0] not in ids
open('/verif/properties.jsonl','a').write(json.dumps(dict(id=a[0],title=a[1],statement=a[2],quantifier=a[3],why_tests_cant=a[4],anchors=a[5].split(',')))+'\n')
