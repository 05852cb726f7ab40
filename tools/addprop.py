"""Append properties (a JSON list on stdin) to properties.jsonl."""
import json,sys
p='/verif/properties.jsonl'
have={json.loads(l)['id'] for l in open(p)}
with open(p,'a') as f:
    for d in json.load(sys.stdin):
        assert d['id'] not in have, d['id']
        assert set(d)=={'id','title','statement','quantifier','why_tests_cant','anchors'}
        f.write(json.dumps(d,ensure_ascii=False)+'\n')
